import Verif.Props.Elements

/-!
# A uniform charge density on any triangulation (C94)
-/

set_option linter.unusedSectionVars false

namespace Dt
open Spec Poisson Topology
variable {K : Type} [Field K] [LinearOrder K] [IsStrictOrderedRing K] {g : Nat}

/-- The integral over the mesh of the function that is linear in each cell with the value `v i` at vertex `i`: volume
times mean value at the corners. -/
def Spec.integral (D : DMesh K g) (vol : DSimplex K → K) (v : Nat → K) : K :=
  (D.cells.map (fun c => vol c * ((∑ k : Fin (g + 1), v ((c.verts[k.1]?).getD 0)) / (g + 1 : Nat)))).sum

section
variable {D : DMesh K g} {sh : Shape K g} {N : Nat} {marker : Int → Int} {lo hi : Int} {v0 vN eps : K}
  {d : List (String × Int × Val K)}

/-- The right-hand side of a uniform density, tested with a function. -/
theorem load_test (hm : Meshed D sh N) (rho : K) (v : Nat → K) :
    ∑ i ∈ Finset.range (N + 1), (loadOn D sh N rho).getD i 0 * v i = rho * integral D sh.vol v := by
  have hget : ∀ i ∈ Finset.range (N + 1), (loadOn D sh N rho).getD i 0 * v i = (D.cells.map (fun c =>
      rho * ((∑ k ∈ Finset.range (g + 1), unit i (c.verts.getD k 0)) * sh.vol c / (g + 1 : Nat)) * v i)).sum := by
    intro i hi
    have hi' := Finset.mem_range.1 hi
    have : (loadOn D sh N rho).getD i 0 = (D.cells.map (fun c =>
        rho * ((∑ k ∈ Finset.range (g + 1), unit i (c.verts.getD k 0)) * sh.vol c / (g + 1 : Nat)))).sum := by
      unfold loadOn
      simp [List.getD_eq_getElem?_getD, List.getElem?_map, List.getElem?_range hi']
    rw [this, List.sum_map_mul_right]
  rw [Finset.sum_congr rfl hget]
  have list_sum : ∀ (l : List (DSimplex K)) (S : Finset Nat) (f : Nat → DSimplex K → K),
      ∑ i ∈ S, (l.map (f i)).sum = (l.map (fun c => ∑ i ∈ S, f i c)).sum := by
    intro l S f
    induction l with
    | nil => simp
    | cons c l ih => simp only [List.map_cons, List.sum_cons, Finset.sum_add_distrib, ih]
  rw [list_sum]
  unfold integral
  rw [← List.sum_map_mul_left]
  congr 1
  refine List.map_congr_left fun c hc => ?_
  have hlen := hm.corners c hc
  have hin : ∀ k ∈ Finset.range (g + 1), ∑ i ∈ Finset.range (N + 1), unit i (c.verts.getD k 0) * v i = v (c.verts.getD k 0) := by
    intro k hk
    have hk' := Finset.mem_range.1 hk
    have hle : c.verts.getD k 0 ≤ N := by
      refine hm.range c hc _ ?_
      rw [List.getD_eq_getElem?_getD, List.getElem?_eq_getElem (by omega)]
      exact List.getElem_mem _
    rw [Finset.sum_eq_single_of_mem (c.verts.getD k 0) (Finset.mem_range.2 (by omega))]
    · simp [unit]
    · intro i _ hi
      unfold unit
      rw [if_neg (Ne.symm hi), zero_mul]
  have e : ∑ i ∈ Finset.range (N + 1), rho * ((∑ k ∈ Finset.range (g + 1), unit i (c.verts.getD k 0)) * sh.vol c / (g + 1 : Nat)) * v i =
      rho * (sh.vol c * ((∑ k ∈ Finset.range (g + 1), ∑ i ∈ Finset.range (N + 1), unit i (c.verts.getD k 0) * v i) / (g + 1 : Nat))) := by
    rw [Finset.sum_comm (s := Finset.range (g + 1))]
    have : ∑ i ∈ Finset.range (N + 1), ∑ k ∈ Finset.range (g + 1), unit i (c.verts.getD k 0) * v i =
        ∑ i ∈ Finset.range (N + 1), (∑ k ∈ Finset.range (g + 1), unit i (c.verts.getD k 0)) * v i :=
      Finset.sum_congr rfl fun i _ => (Finset.sum_mul _ _ _).symm
    rw [this, div_eq_mul_inv, Finset.sum_mul, Finset.mul_sum, Finset.mul_sum]
    refine Finset.sum_congr rfl fun i _ => ?_
    ring
  rw [e, Finset.sum_congr rfl hin, Finset.sum_range]
  simp only [List.getD_eq_getElem?_getD]

/-- C94 (uniform density).  With a number as source density the equations have just one solution; it has the given values
at the sides, and the integral of `eps F · grad v` is the density times the integral of `v`, for every function `v` that is
linear in each cell and zero at the sides. -/
theorem C94_density (he : 0 < eps) (hm : Meshed D sh N)
    (hl : ∀ i ≤ N, Linked D (fun i => OnSide D marker lo i ∨ OnSide D marker hi i) i)
    (h1 : d.lookup "rmin" = some (lo, .num v0)) (h2 : d.lookup "rmax" = some (hi, .num vN)) (rho : K) :
    ∃ s, createOn eps D sh N marker d = .ok s ∧
      (∃! U, Solves N (assembleSourceOn D sh N marker s (some rho)).A (assembleSourceOn D sh N marker s (some rho)).b U) ∧
      ∀ U, Solves N (assembleSourceOn D sh N marker s (some rho)).A (assembleSourceOn D sh N marker s (some rho)).b U →
        ∃ F, negEOn D sh U = D.cells.map F ∧ Sides D marker lo hi v0 vN (fun i => U.getD i 0) ∧
          (∀ c ∈ D.cells, IsGrad D c (fun i => U.getD i 0) (F c)) ∧
          ∀ v G, Vanishes D marker lo hi v → (∀ c ∈ D.cells, IsGrad D c v (G c)) →
            pairing eps D sh.vol F G = rho * integral D sh.vol v := by
  obtain ⟨s, hs, hall⟩ := C94_potential he hm hl h1 h2
  obtain ⟨hu, hU⟩ := hall (loadOn D sh N rho) (by simp [loadOn])
  refine ⟨s, hs, hu, fun U h => ?_⟩
  obtain ⟨F, hF, hE⟩ := hU U h
  exact ⟨F, hF, hE.sides, hE.gradient, fun v G hv hG => (hE.gauss v G hv hG).trans (load_test hm rho v)⟩

/-- C94 (total charge).  The right-hand side of a uniform density, before the boundary values are put in, sums up to the
density times the volume. -/
theorem C94_total (hm : Meshed D sh N) (rho : K) : (loadOn D sh N rho).sum = rho * (D.cells.map sh.vol).sum := by
  have := load_test hm rho (fun _ => 1)
  simp only [mul_one] at this
  have hlen : (loadOn D sh N rho).length = N + 1 := by simp [loadOn]
  have e : (loadOn D sh N rho).sum = ∑ i ∈ Finset.range (N + 1), (loadOn D sh N rho).getD i 0 := by
    rw [← hlen, Finset.sum_range, ← Fin.sum_univ_getElem]
    refine Finset.sum_congr rfl fun i _ => ?_
    simp [List.getD_eq_getElem?_getD]
  rw [e, this]
  congr 1
  unfold integral
  congr 1
  refine List.map_congr_left fun c _ => ?_
  have : ((g + 1 : Nat) : K) ≠ 0 := by positivity
  rw [Finset.sum_const, Finset.card_univ, Fintype.card_fin, nsmul_eq_mul, mul_one, div_self this, mul_one]

end

example (b : Bool) := C94_density (eps := (1 : ℚ)) one_pos (kite_meshed b) (kite_linked b) (d := kiteBCs) rfl rfl 3

end Dt
