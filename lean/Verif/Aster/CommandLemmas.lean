import Verif.Aster.Commands
import Verif.Med.FamilyLemmas

/-! # The reading of a command file, and lemmas for C105 -/
namespace Vega

/-! ## Specification: a file of commands is read from its first command to its last -/
namespace CommSpec
open Aster

/-- The names that are defined, with what they stand for. -/
abbrev Env := Name → Option Kind

/-- No name is defined. -/
def Env.empty : Env := fun _ => none

/-- The names used are defined and stand for what is expected. -/
def Env.provides (e : Env) (uses : List (Name × Kind)) : Bool := uses.all fun u => e u.1 == some u.2

/-- Each of the names is defined and no longer is afterwards. -/
def Env.destroy (e : Env) : List Name → Option Env
  | [] => some e
  | n :: ns => if (e n).isSome then Env.destroy (Function.update e n none) ns else none

/-- A command: an error (`none`) when it uses a name that is not defined or stands for something else, defines one that is
already defined, destroys one that is not defined, or cannot be read. -/
def step (e : Env) : Cmd → Option Env
  | .define n k uses => if e.provides uses && (e n).isNone then some (Function.update e n (some k)) else none
  | .call uses => if e.provides uses then some e else none
  | .destroy ns => e.destroy ns
  | .invalid => none

/-- The commands one after the other. -/
def run (e : Env) : List Cmd → Option Env
  | [] => some e
  | c :: cs => match step e c with
    | none => none
    | some e' => run e' cs

/-- The file is read to its end. -/
def Readable (cs : List Cmd) : Prop := ∃ e, run Env.empty cs = some e

end CommSpec

namespace Aster
open CommSpec Med

/-! ## Texts -/

/-- Any of the tags. -/
inductive AnyTag where
  | plain (t : PlainTag)
  | set (t : SetTag)
  | num (t : Tag)
  | pad (t : PadTag)
  | two (t : SubTag)
deriving DecidableEq

def AnyTag.text : AnyTag → Text
  | .plain t => t.text
  | .set t => t.text
  | .num t => t.text
  | .pad t => t.text
  | .two t => t.text

def Name.tag : Name → AnyTag
  | .plain t => .plain t
  | .set t _ => .set t
  | .num t _ => .num t
  | .pad t _ => .pad t
  | .two t _ _ => .two t

def Name.rest : Name → Text
  | .plain _ => []
  | .set _ id => decimal id
  | .num _ id => decimal id
  | .pad t id => padded t.width id
  | .two _ id sub => decimal id ++ '_' :: decimal sub

theorem text_split (n : Name) : n.text = n.tag.text ++ n.rest := by
  cases n <;> simp [Name.text, Name.tag, AnyTag.text, Name.rest]

/-- All the tags. -/
def AnyTag.all : List AnyTag :=
  [PlainTag.MAIL, .MODMECA, .CHMAT, .CAEL, .freqList, .missing].map .plain ++
  [SetTag.BL, .BLF, .CHMEC, .CHMEF, .CN].map .set ++
  [Tag.RESU, .CRESU, .TBLO, .uloc, .unit, .RETB, .DEP, .LAUTO, .RAMP, .IRAMP, .NDDL, .RIEL, .RIGI, .RGEL, .RIGE, .MAEL,
   .MASS, .AMEL, .AMOR, .AMST, .MO, .MOD, .UMO, .URESU, .IMO, .IRESU, .JMO, .JRESU, .pfreq, .MOSTA, .RESVE, .modes, .NDDLG,
   .MASSG, .RIGIG, .AMORG, .AMMOI, .AMMOS, .AMMOT, .AMMO, .efreq, .GENE, .FSIG, .TBCRT, .bare].map .num ++
  [PadTag.LST, .FCT, .LSPR, .LSIP].map .pad ++ [SubTag.D, .VE, .FX, .VG].map .two

theorem mem_all (t : AnyTag) : t ∈ AnyTag.all := by
  rcases t with t | t | t | t | t <;> cases t <;> decide +kernel

/-- Two tags have the same text only when they have no letters. -/
theorem tag_inj_all : ∀ s ∈ AnyTag.all, ∀ t ∈ AnyTag.all, s.text = t.text → s = t ∨ s.text = [] := by decide +kernel

theorem tag_letters_all : ∀ s ∈ AnyTag.all, ∀ c ∈ s.text, c.isDigit = false := by decide +kernel

theorem tag_empty_all : ∀ s ∈ AnyTag.all, s.text = [] → s = .plain .missing ∨ s = .num .bare := by decide +kernel

theorem decimal_digits (n : Nat) : ∀ c ∈ decimal n, c.isDigit = true := by
  intro c hc
  have e : decimal n = Nat.toDigits 10 n := by simp [decimal, Nat.repr]
  rw [e] at hc
  exact Nat.isDigit_of_mem_toDigits (by omega) (by omega) hc

theorem decimal_ne_nil (n : Nat) : decimal n ≠ [] := by
  have e : decimal n = Nat.toDigits 10 n := by simp [decimal, Nat.repr]
  rw [e]
  have := Nat.length_toDigits_pos (b := 10) (n := n)
  intro h
  rw [h] at this
  simp at this

theorem padded_digits (w n : Nat) : ∀ c ∈ padded w n, c.isDigit = true := by
  intro c hc
  rcases List.mem_append.mp hc with h | h
  · rw [(List.mem_replicate.mp h).2]; decide
  · exact decimal_digits n c h

theorem ofDigitChars_zeros (k : Nat) (l : Text) :
    Nat.ofDigitChars 10 (List.replicate k '0' ++ l) 0 = Nat.ofDigitChars 10 l 0 := by
  induction k with
  | zero => simp
  | succ k ih =>
    rw [List.replicate_succ, List.cons_append, Nat.ofDigitChars_cons]
    simpa using ih

theorem padded_inj {w a b : Nat} (h : padded w a = padded w b) : a = b := by
  have := congrArg (fun l => Nat.ofDigitChars 10 l 0) h
  simp only [padded, ofDigitChars_zeros] at this
  have e : ∀ n, decimal n = Nat.toDigits 10 n := by intro n; simp [decimal, Nat.repr]
  rw [e, e] at this
  simpa [Nat.ofDigitChars_toDigits] using this

/-- What follows the letters begins with a digit. -/
theorem rest_head (n : Name) : ∀ c ∈ n.rest.head?, c.isDigit = true := by
  intro c hc
  cases n with
  | plain t => simp [Name.rest] at hc
  | set t i => exact decimal_digits i c (List.mem_of_mem_head? hc)
  | num t i => exact decimal_digits i c (List.mem_of_mem_head? hc)
  | pad t i => exact padded_digits _ i c (List.mem_of_mem_head? hc)
  | two t i s =>
    have := decimal_ne_nil i
    refine decimal_digits i c ?_
    cases hd : decimal i with
    | nil => exact absurd hd this
    | cons x xs => simp [Name.rest, hd] at hc; simp [hc]

theorem split_inj {p q r s : Text} (hp : ∀ c ∈ p, c.isDigit = false) (hq : ∀ c ∈ q, c.isDigit = false)
    (hr : ∀ c ∈ r.head?, c.isDigit = true) (hs : ∀ c ∈ s.head?, c.isDigit = true) (e : p ++ r = q ++ s) :
    p = q ∧ r = s := by
  induction p generalizing q with
  | nil =>
    cases q with
    | nil => exact ⟨rfl, by simpa using e⟩
    | cons c q =>
      have := hr c (by rw [show r = c :: q ++ s by simpa using e]; simp)
      rw [hq c (by simp)] at this
      cases this
  | cons d p ih =>
    cases q with
    | nil =>
      have := hs d (by rw [show s = d :: p ++ r by simpa using e.symm]; simp)
      rw [hp d (by simp)] at this
      cases this
    | cons c q =>
      simp only [List.cons_append, List.cons.injEq] at e
      obtain ⟨h1, h2⟩ := ih (fun c hc => hp c (by simp [hc])) (fun c hc => hq c (by simp [hc])) e.2
      exact ⟨by rw [e.1, h1], h2⟩

theorem rest_inj {a b : Name} (ht : a.tag = b.tag) (hr : a.rest = b.rest) : a = b := by
  cases a <;> cases b <;> simp only [Name.tag, reduceCtorEq, AnyTag.plain.injEq, AnyTag.set.injEq, AnyTag.num.injEq,
    AnyTag.pad.injEq, AnyTag.two.injEq] at ht
  · rw [ht]
  · rw [ht, decimal_inj hr]
  · rw [ht, decimal_inj hr]
  · subst ht; rw [padded_inj hr]
  · rename_i t i s t' i' s'
    have key : decimal i = decimal i' ∧ decimal s = decimal s' := by
      have hr' : decimal i ++ '_' :: decimal s = decimal i' ++ '_' :: decimal s' := hr
      have g : ∀ (x y x' y' : Text), '_' ∉ x → '_' ∉ x' → x ++ '_' :: y = x' ++ '_' :: y' → x = x' ∧ y = y' := by
        intro x
        induction x with
        | nil =>
          intro y x' y' _ h' e
          cases x' with
          | nil => exact ⟨rfl, by simpa using e⟩
          | cons c x' =>
            simp only [List.nil_append, List.cons_append, List.cons.injEq] at e
            exact absurd (e.1 ▸ List.mem_cons_self) h'
        | cons d x ih =>
          intro y x' y' h h' e
          cases x' with
          | nil =>
            simp only [List.nil_append, List.cons_append, List.cons.injEq] at e
            exact absurd (e.1 ▸ List.mem_cons_self) h
          | cons c x' =>
            simp only [List.cons_append, List.cons.injEq] at e
            obtain ⟨h1, h2⟩ := ih y x' y' (fun hm => h (by simp [hm])) (fun hm => h' (by simp [hm])) e.2
            exact ⟨by rw [e.1, h1], h2⟩
      exact g _ _ _ _ (decimal_bar i) (decimal_bar i') hr'
    rw [ht, decimal_inj key.1, decimal_inj key.2]

theorem name_text_inj {a b : Name} (h : a.text = b.text) : a = b := by
  rw [text_split, text_split] at h
  obtain ⟨ht, hr⟩ := split_inj (tag_letters_all _ (mem_all _)) (tag_letters_all _ (mem_all _)) (rest_head a) (rest_head b) h
  rcases tag_inj_all _ (mem_all a.tag) _ (mem_all b.tag) ht with h1 | h1
  · exact rest_inj h1 hr
  · have h2 : b.tag.text = [] := by rw [← ht]; exact h1
    rcases tag_empty_all _ (mem_all _) h1 with ha | ha <;> rcases tag_empty_all _ (mem_all _) h2 with hb | hb
    · exact rest_inj (ha.trans hb.symm) hr
    · cases a <;> cases b <;> simp [Name.tag] at ha hb
      exact absurd hr.symm (decimal_ne_nil _)
    · cases a <;> cases b <;> simp [Name.tag] at ha hb
      exact absurd hr (decimal_ne_nil _)
    · exact rest_inj (ha.trans hb.symm) hr

/-! ## Commands that define and use -/

/-- What a command defines. -/
def Cmd.defs : Cmd → List (Name × Kind)
  | .define n k _ => [(n, k)]
  | _ => []

/-- What commands define. -/
def defsOf (cs : List Cmd) : List (Name × Kind) := cs.flatMap Cmd.defs

@[simp] theorem defsOf_nil : defsOf [] = [] := rfl
@[simp] theorem defsOf_define (n k u cs) : defsOf (.define n k u :: cs) = (n, k) :: defsOf cs := rfl
@[simp] theorem defsOf_call (u cs) : defsOf (.call u :: cs) = defsOf cs := rfl
@[simp] theorem defsOf_append (a b : List Cmd) : defsOf (a ++ b) = defsOf a ++ defsOf b := by simp [defsOf]
theorem defsOf_flatMap {α} (l : List α) (f : α → List Cmd) : defsOf (l.flatMap f) = l.flatMap fun x => defsOf (f x) := by
  simp [defsOf, List.flatMap_assoc]
theorem defsOf_map {α} (l : List α) (f : α → Cmd) : defsOf (l.map f) = l.flatMap fun x => (f x).defs := by
  simp [defsOf, List.flatMap_map]

/-- What is used is known or defined before; nothing is destroyed. -/
def Supplied (S : Name × Kind → Prop) : List Cmd → Prop
  | [] => True
  | .define n k us :: cs => (∀ u ∈ us, S u) ∧ Supplied (fun u => S u ∨ u = (n, k)) cs
  | .call us :: cs => (∀ u ∈ us, S u) ∧ Supplied S cs
  | .destroy _ :: _ => False
  | .invalid :: _ => False

theorem Supplied.mono {S T : Name × Kind → Prop} (h : ∀ u, S u → T u) {cs : List Cmd} (hs : Supplied S cs) :
    Supplied T cs := by
  induction cs generalizing S T with
  | nil => trivial
  | cons c cs ih =>
    cases c with
    | define n k us => exact ⟨fun u hu => h u (hs.1 u hu), ih (fun u hu => hu.imp (h u) id) hs.2⟩
    | call us => exact ⟨fun u hu => h u (hs.1 u hu), ih h hs.2⟩
    | destroy ns => exact hs
    | invalid => exact hs

theorem supplied_append {S : Name × Kind → Prop} {a b : List Cmd} (ha : Supplied S a)
    (hb : Supplied (fun u => S u ∨ u ∈ defsOf a) b) : Supplied S (a ++ b) := by
  induction a generalizing S with
  | nil => exact hb.mono (by simp)
  | cons c a ih =>
    cases c with
    | define n k us =>
      exact ⟨ha.1, ih ha.2 (hb.mono (by intro u hu; simp only [defsOf_define, List.mem_cons] at hu; tauto))⟩
    | call us => exact ⟨ha.1, ih ha.2 (hb.mono (by intro u hu; simpa using hu))⟩
    | destroy ns => exact ha.elim
    | invalid => exact ha.elim

/-- The uses of a command that defines or only uses. -/
def Cmd.Plain (S : Name × Kind → Prop) : Cmd → Prop
  | .define _ _ us => ∀ u ∈ us, S u
  | .call us => ∀ u ∈ us, S u
  | _ => False

theorem supplied_of_plain {S : Name × Kind → Prop} {cs : List Cmd} (h : ∀ c ∈ cs, c.Plain S) : Supplied S cs := by
  induction cs generalizing S with
  | nil => trivial
  | cons c cs ih =>
    have hc := h c (by simp)
    have ht : ∀ d ∈ cs, d.Plain S := fun d hd => h d (by simp [hd])
    cases c with
    | define n k us =>
      refine ⟨hc, (ih ht).mono fun u hu => .inl hu⟩
    | call us => exact ⟨hc, ih ht⟩
    | destroy ns => exact hc.elim
    | invalid => exact hc.elim

theorem provides_iff (e : Env) (us : List (Name × Kind)) : e.provides us = true ↔ ∀ u ∈ us, e u.1 = some u.2 := by
  simp [Env.provides]

/-- Commands that are supplied and define new names run, and the names they define are added. -/
theorem run_supplied {e : Env} {cs rest : List Cmd} (hs : Supplied (fun u => e u.1 = some u.2) cs)
    (hn : ((defsOf cs).map Prod.fst).Nodup) (hf : ∀ u ∈ defsOf cs, e u.1 = none) :
    ∃ e', run e (cs ++ rest) = run e' rest ∧ (∀ u ∈ defsOf cs, e' u.1 = some u.2) ∧
      ∀ n, (∀ k, (n, k) ∉ defsOf cs) → e' n = e n := by
  induction cs generalizing e with
  | nil => exact ⟨e, rfl, by simp, by simp⟩
  | cons c cs ih =>
    cases c with
    | define n k us =>
      simp only [defsOf_define, List.map_cons, List.nodup_cons, List.mem_map, not_exists, not_and] at hn
      have hstep : step e (.define n k us) = some (Function.update e n (some k)) := by
        have h1 := (provides_iff e us).mpr hs.1
        have h2 := hf (n, k) (by simp)
        simp only [step, h1, Bool.true_and]
        rw [if_pos]
        simpa using h2
      have hne : ∀ u ∈ defsOf cs, u.1 ≠ n := fun u hu he => hn.1 u hu he
      obtain ⟨e', h1, h2, h3⟩ := ih (e := Function.update e n (some k))
        (hs.2.mono (by
          rintro u (hu | rfl)
          · by_cases hun : u.1 = n
            · have := hf (n, k) (by simp)
              rw [hun] at hu
              rw [this] at hu
              cases hu
            · rw [Function.update_of_ne hun]; exact hu
          · simp)) hn.2
        (fun u hu => by rw [Function.update_of_ne (hne u hu)]; exact hf u (by simp [hu]))
      refine ⟨e', ?_, ?_, ?_⟩
      · rw [List.cons_append, run, hstep]; exact h1
      · intro u hu
        simp only [defsOf_define, List.mem_cons] at hu
        rcases hu with rfl | hu
        · rw [h3 n (fun k' hk => hne _ hk rfl)]; simp
        · exact h2 u hu
      · intro x hx
        simp only [defsOf_define, List.mem_cons, not_or] at hx
        rw [h3 x fun k' => (hx k').2]
        refine Function.update_of_ne ?_ _ _
        intro he
        exact (hx k).1 (by rw [he])
    | call us =>
      have h1 := (provides_iff e us).mpr hs.1
      obtain ⟨e', h2, h3, h4⟩ := ih hs.2 hn hf
      refine ⟨e', ?_, h3, h4⟩
      rw [List.cons_append, run]
      simp only [step, h1, if_true]
      exact h2
    | destroy ns => exact hs.elim
    | invalid => exact hs.elim

theorem destroy_all {e : Env} {ns : List Name} (hn : ns.Nodup) (h : ∀ n ∈ ns, e n ≠ none) :
    ∃ e', e.destroy ns = some e' ∧ (∀ n ∈ ns, e' n = none) ∧ ∀ n, n ∉ ns → e' n = e n := by
  induction ns generalizing e with
  | nil => exact ⟨e, rfl, by simp, by simp⟩
  | cons n ns ih =>
    rw [List.nodup_cons] at hn
    have h0 : (e n).isSome = true := Option.isSome_iff_ne_none.mpr (h n (by simp))
    obtain ⟨e', h1, h2, h3⟩ := ih (e := Function.update e n none) hn.2 (by
      intro x hx
      have : x ≠ n := fun he => hn.1 (he ▸ hx)
      rw [Function.update_of_ne this]
      exact h x (by simp [hx]))
    refine ⟨e', ?_, ?_, ?_⟩
    · rw [Env.destroy, if_pos h0]; exact h1
    · intro x hx
      rcases List.mem_cons.mp hx with rfl | hx
      · rw [h3 x hn.1]; simp
      · exact h2 x hx
    · intro x hx
      simp only [List.mem_cons, not_or] at hx
      rw [h3 x hx.2, Function.update_of_ne hx.1]

theorem run_append (e : Env) (a b : List Cmd) : run e (a ++ b) = (run e a).bind fun e' => run e' b := by
  induction a generalizing e with
  | nil => rfl
  | cons c a ih =>
    simp only [List.cons_append, run]
    cases step e c with
    | none => rfl
    | some e' => exact ih e'

/-! ## Files that cannot be read -/

/-- What a command uses. -/
def Cmd.uses : Cmd → List (Name × Kind)
  | .define _ _ us => us
  | .call us => us
  | _ => []

theorem destroy_some {e e' : Env} {ns : List Name} (h : e.destroy ns = some e') (n : Name) (k : Kind)
    (hk : e' n = some k) : e n = some k := by
  induction ns generalizing e with
  | nil => simp only [Env.destroy, Option.some.injEq] at h; rw [h]; exact hk
  | cons x ns ih =>
    rw [Env.destroy] at h
    split at h
    · have := ih h
      by_cases hx : n = x
      · subst hx; simp at this
      · rwa [Function.update_of_ne hx] at this
    · cases h

theorem step_some {e e' : Env} {c : Cmd} (h : step e c = some e') (n : Name) (k : Kind) (hk : e' n = some k) :
    e n = some k ∨ (n, k) ∈ c.defs := by
  cases c with
  | define x j us =>
    simp only [step] at h
    split at h
    · simp only [Option.some.injEq] at h
      subst h
      by_cases hx : n = x
      · subst hx; right; simp at hk; simp [Cmd.defs, hk]
      · left; rwa [Function.update_of_ne hx] at hk
    · cases h
  | call us =>
    simp only [step] at h
    split at h
    · simp only [Option.some.injEq] at h
      exact .inl (h ▸ hk)
    · cases h
  | destroy ns => exact .inl (destroy_some h n k hk)
  | invalid => cases h

theorem run_some {e e' : Env} {cs : List Cmd} (h : run e cs = some e') (n : Name) (k : Kind) (hk : e' n = some k) :
    e n = some k ∨ (n, k) ∈ defsOf cs := by
  induction cs generalizing e with
  | nil => simp only [run, Option.some.injEq] at h; exact .inl (h ▸ hk)
  | cons c cs ih =>
    rw [run] at h
    cases hs : step e c with
    | none => rw [hs] at h; cases h
    | some e1 =>
      rw [hs] at h
      rcases ih h with h1 | h1
      · rcases step_some hs n k h1 with h2 | h2
        · exact .inl h2
        · exact .inr (by simp only [defsOf, List.flatMap_cons, List.mem_append]; exact .inl h2)
      · exact .inr (by simp only [defsOf, List.flatMap_cons, List.mem_append]; exact .inr h1)

theorem step_uses {e e' : Env} {c : Cmd} (h : step e c = some e') : ∀ u ∈ c.uses, e u.1 = some u.2 := by
  cases c with
  | define x j us =>
    simp only [step] at h
    split at h
    · rename_i hc
      rw [Bool.and_eq_true] at hc
      exact (provides_iff e us).mp hc.1
    · cases h
  | call us =>
    simp only [step] at h
    split at h
    · rename_i hc
      exact (provides_iff e us).mp hc
    · cases h
  | destroy ns => simp [Cmd.uses]
  | invalid => cases h

/-- A name that is used has been defined by a command before. -/
theorem used_defined {a b : List Cmd} {c : Cmd} (h : Readable (a ++ c :: b)) : ∀ u ∈ c.uses, u ∈ defsOf a := by
  obtain ⟨e, h⟩ := h
  intro u hu
  rw [run_append] at h
  cases ha : run Env.empty a with
  | none => rw [ha] at h; cases h
  | some e1 =>
    rw [ha] at h
    simp only [Option.bind_some, run] at h
    cases hs : step e1 c with
    | none => rw [hs] at h; cases h
    | some e2 =>
      rcases run_some ha u.1 u.2 (step_uses hs u hu) with h1 | h1
      · cases h1
      · exact h1

theorem defsOf_mono {a b : List Cmd} : ∀ u ∈ defsOf a, u ∈ defsOf (a ++ b) := by
  intro u hu
  simp [hu]

/-- A name that is used is defined by a command. -/
theorem used_defined' {cs : List Cmd} (h : Readable cs) {c : Cmd} (hc : c ∈ cs) : ∀ u ∈ c.uses, u ∈ defsOf cs := by
  obtain ⟨a, b, rfl⟩ := List.append_of_mem hc
  exact fun u hu => defsOf_mono u (used_defined h u hu)

theorem not_invalid {cs : List Cmd} (h : Readable cs) : Cmd.invalid ∉ cs := by
  intro hc
  obtain ⟨a, b, rfl⟩ := List.append_of_mem hc
  obtain ⟨e, h⟩ := h
  rw [run_append] at h
  cases ha : run Env.empty a with
  | none => rw [ha] at h; cases h
  | some e1 => rw [ha] at h; cases h

theorem destroyed_defined {e e' : Env} {ns : List Name} (h : e.destroy ns = some e') : ∀ n ∈ ns, e n ≠ none := by
  induction ns generalizing e with
  | nil => simp
  | cons x ns ih =>
    rw [Env.destroy] at h
    split at h
    · rename_i hx
      intro n hn
      rcases List.mem_cons.mp hn with rfl | hn
      · exact Option.isSome_iff_ne_none.mp hx
      · have := ih h n hn
        by_cases hnx : n = x
        · subst hnx; simp at this
        · rwa [Function.update_of_ne hnx] at this
    · cases h

/-- A name that is destroyed is defined by a command. -/
theorem destroyed_defined' {cs : List Cmd} (h : Readable cs) {ns : List Name} (hc : Cmd.destroy ns ∈ cs) :
    ∀ n ∈ ns, ∃ k, (n, k) ∈ defsOf cs := by
  obtain ⟨a, b, rfl⟩ := List.append_of_mem hc
  obtain ⟨e, h⟩ := h
  intro n hn
  rw [run_append] at h
  cases ha : run Env.empty a with
  | none => rw [ha] at h; cases h
  | some e1 =>
    rw [ha] at h
    simp only [Option.bind_some, run, step] at h
    cases hs : e1.destroy ns with
    | none => rw [hs] at h; cases h
    | some e2 =>
      have := destroyed_defined hs n hn
      obtain ⟨k, hk⟩ := Option.ne_none_iff_exists'.mp this
      rcases run_some ha n k hk with h1 | h1
      · cases h1
      · exact ⟨k, defsOf_mono _ h1⟩

end Aster
end Vega
