import Verif.Systus.Cells
import Mathlib.Data.List.Perm.Basic

/-! # C81: elements written to Systus -/
namespace Vega

/-! ## Specification -/
namespace SystusCellSpec
open Systus

/-- The types that Systus knows under the name of another with the same number of nodes, or that it has itself. -/
def Supported (t : CellType) : Bool :=
  match t with
  | .point1 | .seg2 | .seg3 | .tri3 | .tri6 | .quad4 | .quad8 | .tetra4 | .tetra10 | .penta6 | .penta15 | .hexa8
  | .hexa20 | .poly _ => true
  | _ => false

/-- Edges of the quadratic cells in the manual of MED, from 0: two corners, and the node between them. -/
def edges : CellType → List (Nat × Nat × Nat)
  | .seg3 => [(0, 1, 2)]
  | .tri6 => [(0, 1, 3), (1, 2, 4), (2, 0, 5)]
  | .quad8 => [(0, 1, 4), (1, 2, 5), (2, 3, 6), (3, 0, 7)]
  | .tetra10 => [(0, 1, 4), (1, 2, 5), (2, 0, 6), (0, 3, 7), (1, 3, 8), (2, 3, 9)]
  | .penta15 => [(0, 1, 6), (1, 2, 7), (2, 0, 8), (3, 4, 9), (4, 5, 10), (5, 3, 11), (0, 3, 12), (1, 4, 13),
      (2, 5, 14)]
  | .hexa20 => [(0, 1, 8), (1, 2, 9), (2, 3, 10), (3, 0, 11), (4, 5, 12), (5, 6, 13), (6, 7, 14), (7, 4, 15),
      (0, 4, 16), (1, 5, 17), (2, 6, 18), (3, 7, 19)]
  | _ => []

/-- Edges for Systus, from 0: going round a face, corners and middles alternate. -/
def systusEdges : CellType → List (Nat × Nat × Nat)
  | .seg3 => [(0, 2, 1)]
  | .tri6 => [(0, 2, 1), (2, 4, 3), (4, 0, 5)]
  | .quad8 => [(0, 2, 1), (2, 4, 3), (4, 6, 5), (6, 0, 7)]
  | .tetra10 => [(0, 2, 1), (2, 4, 3), (4, 0, 5), (0, 9, 6), (2, 9, 7), (4, 9, 8)]
  | .penta15 => [(0, 2, 1), (2, 4, 3), (4, 0, 5), (0, 9, 6), (2, 11, 7), (4, 13, 8), (9, 11, 10), (11, 13, 12),
      (13, 9, 14)]
  | .hexa20 => [(0, 2, 1), (2, 4, 3), (4, 6, 5), (6, 0, 7), (0, 12, 8), (2, 14, 9), (4, 16, 10), (6, 18, 11),
      (12, 14, 13), (14, 16, 15), (16, 18, 17), (18, 12, 19)]
  | _ => []

/-- The nodes `a`, `b`, with `m` between them, of a cell. -/
def OnEdge (edges : List (Nat × Nat × Nat)) (nodes : List Int) (a b m : Int) : Prop :=
  ∃ e ∈ edges, nodes[e.2.2]? = some m ∧
    (nodes[e.1]? = some a ∧ nodes[e.2.1]? = some b ∨ nodes[e.1]? = some b ∧ nodes[e.2.1]? = some a)

/-- Sides of the cells without middle nodes, from 0; they are numbered alike by MED and by Systus. -/
def sides : CellType → List (Nat × Nat)
  | .seg2 => [(0, 1)]
  | .tri3 => [(0, 1), (1, 2), (2, 0)]
  | .quad4 => [(0, 1), (1, 2), (2, 3), (3, 0)]
  | .tetra4 => [(0, 1), (1, 2), (2, 0), (0, 3), (1, 3), (2, 3)]
  | .penta6 => [(0, 1), (1, 2), (2, 0), (3, 4), (4, 5), (5, 3), (0, 3), (1, 4), (2, 5)]
  | .hexa8 => [(0, 1), (1, 2), (2, 3), (3, 0), (4, 5), (5, 6), (6, 7), (7, 4), (0, 4), (1, 5), (2, 6), (3, 7)]
  | .poly n => ((List.range (n.val + 3)).map fun k => (k, (k + 1) % (n.val + 3)))
  | _ => []

/-- The nodes `a` and `b` of a cell are the ends of a side. -/
def OnSide (sides : List (Nat × Nat)) (nodes : List Int) (a b : Int) : Prop :=
  ∃ e ∈ sides, nodes[e.1]? = some a ∧ nodes[e.2]? = some b ∨ nodes[e.1]? = some b ∧ nodes[e.2]? = some a

end SystusCellSpec

namespace Systus
open SystusCellSpec

/-! ## Helper lemmas -/

theorem connect_spec (nodes : List Int) : ∀ (ps : List Nat), (∀ p ∈ ps, p < nodes.length) →
    ∃ out : List Int, connect nodes ps = .ok out ∧ out.length = ps.length ∧ (∀ (j p : Nat), ps[j]? = some p → out[j]? = nodes[p]?) ∧
      out = ps.map fun p => nodes.getD p 0 := by
  intro ps
  induction ps with
  | nil => intro _; exact ⟨[], rfl, rfl, by simp, rfl⟩
  | cons p ps ih =>
    intro h
    obtain ⟨out, h1, h2, h3, h4⟩ := ih fun p hp => h p (by simp [hp])
    have hlt : p < nodes.length := h p (by simp)
    have hp : nodes[p]? = some nodes[p] := List.getElem?_eq_getElem hlt
    refine ⟨nodes[p] :: out, by simp [connect, hp, h1], by simp [h2], ?_, ?_⟩
    · intro j q hq
      cases j with
      | zero =>
        simp only [List.getElem?_cons_zero, Option.some.injEq] at hq
        subst hq
        rw [hp]; rfl
      | succ j =>
        simp only [List.getElem?_cons_succ] at hq ⊢
        exact h3 j q hq
    · rw [List.map_cons, ← h4, List.getD_eq_getElem?_getD, hp]
      rfl

theorem order_perm {t : CellType} (h : Supported t = true) :
    ∃ ps, order t = some ps ∧ ps.Perm (List.range t.numNodes) := by
  cases t with
  | poly n => exact ⟨_, rfl, .refl _⟩
  | point1 | seg2 | seg3 | tri3 | tri6 | quad4 | quad8 | tetra4 | tetra10 | penta6 | penta15 | hexa8 | hexa20 =>
    exact ⟨_, rfl, by decide +kernel⟩
  | _ => simp [Supported] at h

theorem range_getD (nodes : List Int) : (List.range nodes.length).map (fun p => nodes.getD p 0) = nodes := by
  apply List.ext_getElem?
  intro i
  by_cases hi : i < nodes.length
  · rw [List.getElem?_map, List.getElem?_range hi, Option.map_some, List.getD_eq_getElem?_getD,
      List.getElem?_eq_getElem hi]
    rfl
  · rw [List.getElem?_eq_none (by simp; omega), List.getElem?_eq_none (by omega)]

/-! ## The theorems -/

/-- **C81 (partial).** A cell of a supported type is written as one element, which lists each node of the cell exactly
once and announces as many nodes as it lists. (Pyramids are not among these types: see below.) -/
theorem C81_nodes_partial (id : Int) (t : CellType) (nodes : List Int) (ht : Supported t = true)
    (hl : nodes.length = t.numNodes) :
    ∃ line, elementLine id t nodes = .ok (some line) ∧ line.id = id ∧ line.nodes.Perm nodes ∧
      line.announced = line.nodes.length := by
  obtain ⟨ps, hps, hperm⟩ := order_perm ht
  have hb : ∀ p ∈ ps, p < nodes.length := fun p hp => by
    rw [hl]
    exact List.mem_range.1 (hperm.mem_iff.1 hp)
  obtain ⟨out, h1, h2, -, h4⟩ := connect_spec nodes ps hb
  have hout : out.Perm nodes := by
    rw [h4]
    have := hperm.map fun p => nodes.getD p 0
    rw [← hl, range_getD] at this
    exact this
  refine ⟨⟨id, nodes.length, out⟩, by simp [elementLine, hps, h1], rfl, hout, ?_⟩
  exact hout.length_eq.symm

example : Supported .hexa20 = true ∧ ((List.range 20).map fun k : Nat => (k : Int)).length = CellType.hexa20.numNodes :=
  by decide

/-- **C81.** The nodes in the middle of the edges stay there. -/
theorem C81_edges (id : Int) (t : CellType) (nodes : List Int) (ht : Supported t = true)
    (hl : nodes.length = t.numNodes) :
    ∃ line, elementLine id t nodes = .ok (some line) ∧ ∀ a b m, OnEdge (edges t) nodes a b m →
      OnEdge (systusEdges t) line.nodes a b m := by
  obtain ⟨ps, hps, hperm⟩ := order_perm ht
  have hb : ∀ p ∈ ps, p < nodes.length := fun p hp => by
    rw [hl]
    exact List.mem_range.1 (hperm.mem_iff.1 hp)
  obtain ⟨out, h1, h2, h3, -⟩ := connect_spec nodes ps hb
  refine ⟨⟨id, nodes.length, out⟩, by simp [elementLine, hps, h1], ?_⟩
  have key : ∀ e ∈ edges t, ∃ e' ∈ systusEdges t, ps[e'.2.2]? = some e.2.2 ∧
      (ps[e'.1]? = some e.1 ∧ ps[e'.2.1]? = some e.2.1 ∨ ps[e'.1]? = some e.2.1 ∧ ps[e'.2.1]? = some e.1) := by
    cases t with
    | seg3 | tri6 | quad8 | tetra10 | penta15 | hexa20 =>
      obtain rfl := Option.some.inj hps
      decide +kernel
    | _ => simp [edges]
  rintro a b m ⟨e, he, hm, hab⟩
  obtain ⟨e', he', km, kab⟩ := key e he
  refine ⟨e', he', by rw [h3 _ _ km, hm], ?_⟩
  rcases kab with ⟨k1, k2⟩ | ⟨k1, k2⟩ <;> rcases hab with ⟨a1, a2⟩ | ⟨a1, a2⟩
  · exact .inl ⟨(h3 _ _ k1).trans a1, (h3 _ _ k2).trans a2⟩
  · exact .inr ⟨(h3 _ _ k1).trans a1, (h3 _ _ k2).trans a2⟩
  · exact .inr ⟨(h3 _ _ k1).trans a2, (h3 _ _ k2).trans a1⟩
  · exact .inl ⟨(h3 _ _ k1).trans a2, (h3 _ _ k2).trans a1⟩

example : OnEdge (edges .quad8) [10, 20, 30, 40, 50, 60, 70, 80] 10 20 50 :=
  ⟨(0, 1, 4), by decide, by decide, .inl ⟨by decide, by decide⟩⟩

/-- **C81.** The sides of the cells without middle nodes remain sides. -/
theorem C81_sides (id : Int) (t : CellType) (nodes : List Int) (ht : Supported t = true)
    (hl : nodes.length = t.numNodes) :
    ∃ line, elementLine id t nodes = .ok (some line) ∧ ∀ a b, OnSide (sides t) nodes a b →
      OnSide (sides t) line.nodes a b := by
  obtain ⟨ps, hps, hperm⟩ := order_perm ht
  have hb : ∀ p ∈ ps, p < nodes.length := fun p hp => by
    rw [hl]
    exact List.mem_range.1 (hperm.mem_iff.1 hp)
  obtain ⟨out, h1, h2, h3, -⟩ := connect_spec nodes ps hb
  refine ⟨⟨id, nodes.length, out⟩, by simp [elementLine, hps, h1], ?_⟩
  have key : ∀ e ∈ sides t, ∃ e' ∈ sides t,
      ps[e'.1]? = some e.1 ∧ ps[e'.2]? = some e.2 ∨ ps[e'.1]? = some e.2 ∧ ps[e'.2]? = some e.1 := by
    cases t with
    | seg2 | tri3 | quad4 | tetra4 | penta6 | hexa8 =>
      obtain rfl := Option.some.inj hps
      decide +kernel
    | poly n =>
      obtain rfl := Option.some.inj hps
      intro e he
      refine ⟨e, he, .inl ?_⟩
      simp only [sides, List.mem_map, List.mem_range] at he
      obtain ⟨k, hk, rfl⟩ := he
      exact ⟨List.getElem?_range hk, List.getElem?_range (Nat.mod_lt _ (by omega))⟩
    | _ => simp [sides]
  rintro a b ⟨e, he, hab⟩
  obtain ⟨e', he', kab⟩ := key e he
  refine ⟨e', he', ?_⟩
  rcases kab with ⟨k1, k2⟩ | ⟨k1, k2⟩ <;> rcases hab with ⟨a1, a2⟩ | ⟨a1, a2⟩
  · exact .inl ⟨(h3 _ _ k1).trans a1, (h3 _ _ k2).trans a2⟩
  · exact .inr ⟨(h3 _ _ k1).trans a1, (h3 _ _ k2).trans a2⟩
  · exact .inr ⟨(h3 _ _ k1).trans a2, (h3 _ _ k2).trans a1⟩
  · exact .inl ⟨(h3 _ _ k1).trans a2, (h3 _ _ k2).trans a1⟩

example : OnSide (sides .hexa8) [10, 20, 30, 40, 50, 60, 70, 80] 10 50 := ⟨(0, 4), by decide, by decide⟩

/-- **C81, false in full.** A pyramid is listed with eight nodes, its top four times, but five nodes are announced. -/
theorem C81_pyramid_false (id a b c d e : Int) :
    elementLine id .pyra5 [a, b, c, d, e] = .ok (some ⟨id, 5, [a, d, c, b, e, e, e, e]⟩) := rfl

/-- **C81, false in full.** Cells of other types are not written at all, for every cell: only a warning is printed. -/
theorem C81_lost_false (id : Int) (t : CellType) (nodes : List Int)
    (ht : t = .quad9 ∨ t = .pyra13 ∨ t = .hexa27 ∨ t = .tri7 ∨ t = .hexgp12 ∨ t = .seg4 ∨ t = .seg5) :
    elementLine id t nodes = .ok none := by
  rcases ht with rfl | rfl | rfl | rfl | rfl | rfl | rfl <;> rfl

end Systus
end Vega
