import Verif.Nastran.LineProps
import Mathlib.Data.List.TakeWhile

/-! # Helper lemmas on fixed format cards -/
namespace Vega
namespace Nastran

/-! ### Trimming -/

theorem trimRight_append_space (l : Line) (n : Nat) :
    trimRight (l ++ List.replicate n ' ') = trimRight l := by
  unfold trimRight
  rw [List.reverse_append, List.reverse_replicate]
  congr 1
  induction n with
  | zero => rfl
  | succ n ih =>
    rw [List.replicate_succ, List.cons_append, List.dropWhile_cons]
    simpa [isSpace] using ih

theorem dropWhile_append_ne {p : Char → Bool} {l m : Line} (h : l.dropWhile p ≠ []) :
    (l ++ m).dropWhile p = l.dropWhile p ++ m := by
  rw [List.dropWhile_append]
  cases h' : l.dropWhile p with
  | nil => exact absurd h' h
  | cons => simp

theorem trim_append_space (l : Line) (n : Nat) : trim (l ++ List.replicate n ' ') = trim l := by
  unfold trim
  by_cases h : l.dropWhile isSpace = []
  · have h2 : (l ++ List.replicate n ' ').dropWhile isSpace = [] := by
      refine List.dropWhile_eq_nil_iff.2 fun c hc => ?_
      rcases List.mem_append.1 hc with hc | hc
      · exact List.dropWhile_eq_nil_iff.1 h c hc
      · rw [List.eq_of_mem_replicate hc]; rfl
    rw [h, h2]
  · rw [dropWhile_append_ne h, trimRight_append_space]

theorem trim_blank (n : Nat) : trim (List.replicate n ' ') = [] :=
  trim_append_space [] n

/-! ### Cutting -/

theorem cut_getElem? (ns : List Nat) : ∀ (l : Line) (k : Nat),
    (cut ns l)[k]? = if k < ns.length ∧ (ns.take k).sum < l.length then
      some ((l.drop (ns.take k).sum).take (ns.getD k 0)) else none := by
  induction ns with
  | nil => intro l k; simp [cut]
  | cons n ns ih =>
    intro l k
    by_cases hl : l = []
    · subst hl; simp [cut]
    · have hl' : l.isEmpty = false := by simpa using hl
      have hpos : 0 < l.length := by
        rcases l with _ | _
        · exact absurd rfl hl
        · simp
      rw [cut, hl', if_neg (by simp)]
      cases k with
      | zero => simp [hpos]
      | succ k =>
        rw [List.getElem?_cons_succ, ih]
        have e1 : ((n :: ns).take (k + 1)).sum = n + (ns.take k).sum := by simp
        have e2 : (n :: ns).getD (k + 1) 0 = ns.getD k 0 := by simp
        rw [e1, e2, List.length_drop, List.drop_drop]
        by_cases h : k < ns.length ∧ (ns.take k).sum < l.length - n
        · rw [if_pos h, if_pos ⟨by simpa using h.1, by omega⟩]
        · rw [if_neg h, if_neg]
          rintro ⟨a, b⟩
          exact h ⟨by simpa using a, by omega⟩

/-- Cutting a text made of pieces of the expected widths gives the pieces back; `last` may be
narrower than its width. -/
theorem cut_pieces : ∀ (ns : List Nat) (ps : List Line) (last : Line), ps.length < ns.length →
    (∀ k (h : k < ps.length), ps[k].length = ns.getD k 0) → (∀ n ∈ ns, 0 < n) →
    last.length ≤ ns.getD ps.length 0 →
    cut ns (ps.flatten ++ last) = ps ++ (if last.isEmpty then [] else [last]) := by
  intro ns
  induction ns with
  | nil => intro ps last h; simp at h
  | cons n ns ih =>
    intro ps last hlen hw hpos hlast
    cases ps with
    | nil =>
      simp at hlast
      cases last with
      | nil => simp [cut]
      | cons c cs =>
        have h1 : (c :: cs).take n = c :: cs := List.take_of_length_le hlast
        have h2 : (c :: cs).drop n = [] := List.drop_of_length_le hlast
        simp only [List.flatten_nil, List.nil_append, cut, h1, h2]
        cases ns <;> simp [cut]
    | cons p ps =>
      have hp : p.length = n := hw 0 (by simp)
      have hn : 0 < n := hpos n (by simp)
      have hne : p ≠ [] := by
        rintro rfl
        simp at hp; omega
      have hnil : ((p :: ps).flatten ++ last).isEmpty = false := by
        simp [hne]
      rw [cut, hnil, if_neg (by simp)]
      have h1 : ((p :: ps).flatten ++ last).take n = p := by
        rw [List.flatten_cons, List.append_assoc, List.take_append_of_le_length (by omega)]
        exact List.take_of_length_le (by omega)
      have h2 : ((p :: ps).flatten ++ last).drop n = ps.flatten ++ last := by
        rw [List.flatten_cons, List.append_assoc, List.drop_append_of_le_length (by omega),
          List.drop_of_length_le (by omega)]
        rfl
      rw [h1, h2, ih ps last (by simpa using hlen) (fun k h => by
        have := hw (k + 1) (by simpa using h)
        rw [List.getD_cons_succ] at this
        exact this) (fun m hm => hpos m (by simp [hm]))
        (by simpa using hlast)]
      rfl

/-! ### The loop over the pieces -/

theorem fieldLoop_cont (max : Nat) : ∀ (toks : List Line) (c : Nat), 0 < c → c < max →
    fieldLoop max toks c = ((toks.take (max - c)).map trim, c + min toks.length (max - c),
      match toks[max - c]? with
      | some t => !(trim t).isEmpty
      | none => false) := by
  intro toks
  induction toks with
  | nil => intro c _ _; simp [fieldLoop]
  | cons t ts ih =>
    intro c h0 hm
    have hc : ¬ c = 0 := by omega
    by_cases h : c + 1 = max
    · have e : max - c = 1 := by omega
      unfold fieldLoop
      rw [e]
      simp only [hc, h, if_false, if_true]
      cases ts with
      | nil => simp; omega
      | cons a b => simp; omega
    · unfold fieldLoop
      simp only [hc, h, if_false]
      rw [ih (c + 1) (by omega) (by omega)]
      obtain ⟨d, hd⟩ : ∃ d, max - c = d + 1 := ⟨max - c - 1, by omega⟩
      have hd' : max - (c + 1) = d := by omega
      rw [hd, hd']
      simp
      omega

theorem fieldLoop_first (max : Nat) (hm : 1 < max) (t : Line) (ts : List Line) :
    fieldLoop max (t :: ts) 0 = (eraseStars (trim t) :: (ts.take (max - 1)).map trim,
      1 + min ts.length (max - 1),
      match ts[max - 1]? with
      | some t => !(trim t).isEmpty
      | none => false) := by
  have h : ¬ 0 + 1 = max := by omega
  unfold fieldLoop
  simp only [if_true, h, if_false]
  rw [fieldLoop_cont max ts 1 (by omega) (by omega)]

end Nastran
end Vega
