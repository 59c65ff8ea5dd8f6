import Verif.Lemmas.CrossPlane
import Verif.Lemmas.CrossBox

/-!
# Lines through a grid of boxes that are cut into triangles
-/

namespace Dt
open Dt.Topology Spec

variable {K : Type} [Field K] [LinearOrder K] [IsStrictOrderedRing K]

/-- The cells of one box are at most `B`. -/
theorem box_cells {g : Nat} {D : DMesh K g} (hn : (D.cells.map (·.index)).Nodup) {B : Nat} (hB : 0 < B) (b : Int) :
    (D.cells.filter (fun c => decide (c.index / (B : Int) = b))).length ≤ B := by
  have h1 : ((D.cells.filter (fun c => decide (c.index / (B : Int) = b))).map (·.index)).Nodup :=
    hn.sublist (List.Sublist.map _ List.filter_sublist)
  have h2 : ((D.cells.filter (fun c => decide (c.index / (B : Int) = b))).map (·.index)) ⊆
      (List.range B).map (fun r : Nat => (B : Int) * b + (r : Int)) := by
    intro z hz
    obtain ⟨c, hc, rfl⟩ := List.mem_map.1 hz
    have hb : c.index / (B : Int) = b := by simpa using (List.mem_filter.1 hc).2
    have hB' : (0 : Int) < B := by exact_mod_cast hB
    have h3 := Int.emod_nonneg c.index hB'.ne'
    have h4 := Int.emod_lt_of_pos c.index hB'
    have h5 := Int.mul_ediv_add_emod c.index B
    refine List.mem_map.2 ⟨(c.index % B).toNat, List.mem_range.2 (by omega), ?_⟩
    rw [Int.toNat_of_nonneg h3, ← hb]
    exact h5
  have := (List.subperm_of_subset h1 h2).length_le
  simpa using this

/-- When a line goes through at most `N` boxes and no box has more than `B` triangles, it goes through at most `B * N`
triangles. -/
theorem atMost_boxes {hg : 2 ≤ 3} {D : DMesh K 2} (hT : Triangulation hg D) {B N : Nat} (hB : 0 < B)
    (hN : ∀ d : Vec K 2, ∃ μ : Int → Int, (∀ c ∈ D.cells, 0 ≤ μ (c.index / (B : Int)) ∧ μ (c.index / (B : Int)) < N) ∧
      ∀ c ∈ D.cells, ∀ c' ∈ D.cells, Ahead hg d c c' → c.index / (B : Int) ≠ c'.index / (B : Int) →
        μ (c'.index / (B : Int)) < μ (c.index / (B : Int))) :
    AtMost hg D (B * N) := by
  classical
  intro d
  obtain ⟨μ, hμ, hdown⟩ := hN d
  obtain ⟨f, hf⟩ := plane_rank hT d
  set inner : DSimplex K → Nat := fun c =>
    ((D.cells.filter (fun x => decide (x.index / (B : Int) = c.index / (B : Int)))).filter (fun x => decide (f c < f x))).length with hin
  have hlt : ∀ c ∈ D.cells, inner c < B := by
    intro c hc
    refine lt_of_lt_of_le ?_ (box_cells (D := D) (by have := hT.manifold.nodup; simpa [DMesh.topo, facetDict, Function.comp_def] using this) hB (c.index / (B : Int)))
    rw [hin]
    dsimp only
    rw [List.length_filter_lt_length_iff_exists]
    exact ⟨c, List.mem_filter.2 ⟨hc, by simp⟩, by simp⟩
  have hB' : (0 : Int) < B := by exact_mod_cast hB
  refine ⟨fun c => (B : Int) * μ (c.index / (B : Int)) + (inner c : Int), ?_, ?_⟩
  · intro c hc
    obtain ⟨h0, h1⟩ := hμ c hc
    have h2 : (inner c : Int) < B := by exact_mod_cast hlt c hc
    have h3 : (0 : Int) ≤ inner c := by positivity
    dsimp only
    constructor
    · have := mul_nonneg hB'.le h0
      omega
    · have := mul_le_mul_of_nonneg_left (Int.add_one_le_of_lt h1) hB'.le
      push_cast
      rw [mul_add, mul_one] at this
      omega
  · intro c hc c' hc' hA
    dsimp only
    by_cases hb : c.index / (B : Int) = c'.index / (B : Int)
    · rw [← hb]
      have hff := hf c hc c' hc' hA
      have : inner c' < inner c := by
        rw [hin]
        dsimp only
        rw [← hb]
        have hsub : (D.cells.filter (fun x => decide (x.index / (B : Int) = c.index / (B : Int)))).filter (fun x => decide (f c' < f x)) =
            ((D.cells.filter (fun x => decide (x.index / (B : Int) = c.index / (B : Int)))).filter (fun x => decide (f c < f x))).filter
              (fun x => decide (f c' < f x)) := by
          rw [List.filter_filter (l := D.cells.filter (fun x => decide (x.index / (B : Int) = c.index / (B : Int))))]
          refine List.filter_congr fun x _ => ?_
          by_cases h1 : f c' < f x
          · simp [h1, hff.trans h1]
          · simp [h1]
        rw [hsub, List.length_filter_lt_length_iff_exists]
        exact ⟨c', List.mem_filter.2 ⟨List.mem_filter.2 ⟨hc', by simp [hb]⟩, by simpa using hff⟩, by simp⟩
      have : (inner c' : Int) < inner c := by exact_mod_cast this
      omega
    · have h1 := hdown c hc c' hc' hA hb
      have h2 : (inner c' : Int) < B := by exact_mod_cast hlt c' hc'
      have h3 : (0 : Int) ≤ inner c := by positivity
      have := mul_le_mul_of_nonneg_left (Int.add_one_le_of_lt h1) hB'.le
      rw [mul_add, mul_one] at this
      omega

/-! ### Rings of boxes -/

/-- How many sectors have a greater value than sector `j`. -/
def above (u : Nat → K) (ny j : Nat) : Nat := ((List.range ny).filter (fun m => decide (u j < u m))).length

theorem above_lt {u : Nat → K} {ny j : Nat} (hj : j < ny) : above u ny j < ny := by
  unfold above
  refine lt_of_lt_of_eq ?_ (List.length_range (n := ny))
  rw [List.length_filter_lt_length_iff_exists]
  exact ⟨j, List.mem_range.2 hj, by simp⟩

theorem above_drop {u : Nat → K} {ny j j' : Nat} (hj' : j' < ny) (h : u j < u j') : above u ny j' < above u ny j := by
  unfold above
  have hsub : (List.range ny).filter (fun m => decide (u j' < u m)) =
      ((List.range ny).filter (fun m => decide (u j < u m))).filter (fun m => decide (u j' < u m)) := by
    rw [List.filter_filter]
    refine List.filter_congr fun x _ => ?_
    by_cases h1 : u j' < u x
    · simp [h1, h.trans h1]
    · simp [h1]
  rw [hsub, List.length_filter_lt_length_iff_exists]
  exact ⟨j', List.mem_filter.2 ⟨List.mem_range.2 hj', by simpa using h⟩, by simp⟩

/-- The boxes still to go, `nx` rings of `ny` boxes: in through the rings or out of them, and around. -/
def ringsToGo (u : Nat → K) (nx ny i j : Nat) : Int :=
  above u ny j + (if u j < 0 then (i : Int) + (nx - 1) else (nx : Int) - 1 - i)

theorem ringsToGo_bound {u : Nat → K} {nx ny i j : Nat} (hi : i < nx) (hj : j < ny) :
    0 ≤ ringsToGo u nx ny i j ∧ ringsToGo u nx ny i j < (ny + 2 * nx - 2 : Nat) := by
  have := above_lt (u := u) hj
  unfold ringsToGo
  split <;> omega

theorem ringsToGo_around {u : Nat → K} {nx ny i j j' : Nat} (hi : i < nx) (hj' : j' < ny) (h : u j < u j') :
    ringsToGo u nx ny i j' < ringsToGo u nx ny i j := by
  have := above_drop hj' h
  unfold ringsToGo
  split
  · rename_i h1
    rw [if_pos (h.trans h1)]
    omega
  · split <;> omega

theorem box_no {B nx i j r : Nat} (hr : r < B) : ((B : Int) * ((j * nx + i : Nat) : Int) + (r : Int)) / (B : Int) = ((j * nx + i : Nat) : Int) := by
  have hB : (0 : Int) < B := by exact_mod_cast (by omega : 0 < B)
  rw [Int.add_comm, Int.add_mul_ediv_left _ _ hB.ne', Int.ediv_eq_zero_of_lt (by positivity) (by exact_mod_cast hr), zero_add]

theorem box_decode {nx i j : Nat} (hi : i < nx) : (j * nx + i) % nx = i ∧ (j * nx + i) / nx = j := by
  constructor
  · rw [Nat.mul_comm, Nat.mul_add_mod, Nat.mod_eq_of_lt hi]
  · rw [Nat.mul_comm, Nat.mul_add_div (by omega), Nat.div_eq_of_lt hi, Nat.add_zero]

/-- Rings of boxes: inside a sector, one goes in or out as `u` says; from sector to sector `u` grows. -/
theorem atMost_rings {hg : 2 ≤ 3} {D : DMesh K 2} (hT : Triangulation hg D) {B nx ny : Nat}
    (hidx : ∀ c ∈ D.cells, ∃ i j r, i < nx ∧ j < ny ∧ r < B ∧ c.index = (B : Int) * ((j * nx + i : Nat) : Int) + (r : Int))
    (u : Vec K 2 → Nat → K)
    (hstep : ∀ d, ∀ c ∈ D.cells, ∀ c' ∈ D.cells, Ahead hg d c c' → ∀ i j r i' j' r', i < nx → j < ny → r < B → i' < nx → j' < ny → r' < B →
      c.index = (B : Int) * ((j * nx + i : Nat) : Int) + (r : Int) → c'.index = (B : Int) * ((j' * nx + i' : Nat) : Int) + (r' : Int) →
      (i = i' ∧ j = j') ∨ (i' = i + 1 ∧ j' = j ∧ 0 < u d j) ∨ (i = i' + 1 ∧ j' = j ∧ u d j < 0) ∨ (i = i' ∧ u d j < u d j')) {n : Nat}
    (hn : B * (ny + 2 * nx - 2) = n) : AtMost hg D n := by
  subst hn
  by_cases hB : B = 0
  · intro d
    refine ⟨fun _ => 0, fun c hc => ?_, fun c hc => ?_⟩ <;>
    · obtain ⟨i, j, r, -, -, hr, -⟩ := hidx c hc
      omega
  refine atMost_boxes hT (by omega) fun d => ?_
  refine ⟨fun b => ringsToGo (u d) nx ny (b.toNat % nx) (b.toNat / nx), ?_, ?_⟩
  · intro c hc
    obtain ⟨i, j, r, hi, hj, hr, he⟩ := hidx c hc
    dsimp only
    rw [he, box_no hr, Int.toNat_natCast, (box_decode hi).1, (box_decode hi).2]
    exact ringsToGo_bound hi hj
  · intro c hc c' hc' hA hne
    obtain ⟨i, j, r, hi, hj, hr, he⟩ := hidx c hc
    obtain ⟨i', j', r', hi', hj', hr', he'⟩ := hidx c' hc'
    have hs := hstep d c hc c' hc' hA i j r i' j' r' hi hj hr hi' hj' hr' he he'
    dsimp only
    rw [he, he', box_no hr, box_no hr'] at hne
    rw [he, he', box_no hr, box_no hr', Int.toNat_natCast, Int.toNat_natCast, (box_decode hi).1, (box_decode hi).2,
      (box_decode hi').1, (box_decode hi').2]
    rcases hs with ⟨rfl, rfl⟩ | ⟨rfl, rfl, h⟩ | ⟨rfl, rfl, h⟩ | ⟨rfl, h⟩
    · exact absurd rfl hne
    · unfold ringsToGo
      rw [if_neg (not_lt.2 h.le), if_neg (not_lt.2 h.le)]
      omega
    · unfold ringsToGo
      rw [if_pos h, if_pos h]
      omega
    · exact ringsToGo_around hi hj' h

end Dt
