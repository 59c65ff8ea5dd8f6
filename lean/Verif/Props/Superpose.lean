import Verif.Spec.Superpose
import Verif.Props.ElementsLoop
import Verif.Props.Interval

/-!
# Potentials superpose, and charges act on each other alike (C127)
-/

set_option linter.unusedSectionVars false

namespace Dt
open Spec Poisson Topology TimeLoop
variable {K : Type} [Field K] [LinearOrder K] [IsStrictOrderedRing K] {g : Nat}

section
variable {D : DMesh K g} {sh : Shape K g} {N : Nat} {marker : Int → Int} {lo hi : Int} {v0 vN w0 wN eps : K}
  {d : List (String × Int × Val K)}

theorem es_grad (hm : Meshed D sh N) {Q phi : Nat → K} {F : DSimplex K → Vec K g}
    (h : Electrostatics eps D sh.vol N marker lo hi v0 vN Q phi F) : ∀ c ∈ D.cells, F c = gradIn sh c phi :=
  fun c hc => isGrad_unique hm hc (h.gradient c hc) (isGrad_gradIn hm hc _)

theorem es_form (hm : Meshed D sh N) {Q phi : Nat → K} {F : DSimplex K → Vec K g}
    (h : Electrostatics eps D sh.vol N marker lo hi v0 vN Q phi F) {v : Nat → K} (hv : Vanishes D marker lo hi v) :
    form eps D sh phi v = ∑ i ∈ Finset.range (N + 1), Q i * v i := by
  have e := h.gauss v (fun c => gradIn sh c v) hv (fun c hc => isGrad_gradIn hm hc _)
  rw [pairing_congr (es_grad hm h) (fun c _ => rfl)] at e
  exact e

theorem es_of_form (hm : Meshed D sh N) {Q phi : Nat → K} (hs : Sides D marker lo hi v0 vN phi)
    (h : ∀ v, Vanishes D marker lo hi v → form eps D sh phi v = ∑ i ∈ Finset.range (N + 1), Q i * v i) :
    Electrostatics eps D sh.vol N marker lo hi v0 vN Q phi (fun c => gradIn sh c phi) := by
  refine ⟨hs, fun c hc => isGrad_gradIn hm hc _, fun v G hv hG => ?_⟩
  rw [← h v hv]
  exact pairing_congr (fun c _ => rfl) (fun c hc => isGrad_unique hm hc (hG c hc) (isGrad_gradIn hm hc v))

theorem es_lin (hm : Meshed D sh N) {Q phi Q' phi' : Nat → K} {F F' : DSimplex K → Vec K g}
    (h : Electrostatics eps D sh.vol N marker lo hi v0 vN Q phi F) (h' : Electrostatics eps D sh.vol N marker lo hi w0 wN Q' phi' F')
    (a b : K) : Electrostatics eps D sh.vol N marker lo hi (a * v0 + b * w0) (a * vN + b * wN) (fun i => a * Q i + b * Q' i)
      (fun i => a * phi i + b * phi' i) (fun c => gradIn sh c (fun i => a * phi i + b * phi' i)) := by
  refine es_of_form hm ⟨fun i h1 h2 => ?_, fun i h1 => ?_⟩ fun v hv => ?_
  · rw [h.sides.low i h1 h2, h'.sides.low i h1 h2]
  · rw [h.sides.high i h1, h'.sides.high i h1]
  · rw [form_add_left, form_smul_left, form_smul_left, es_form hm h hv, es_form hm h' hv, Finset.mul_sum, Finset.mul_sum,
      ← Finset.sum_add_distrib]
    exact Finset.sum_congr rfl fun i _ => by ring

theorem zero_vanishes {Q phi : Nat → K} {F : DSimplex K → Vec K g}
    (h : Electrostatics eps D sh.vol N marker lo hi 0 0 Q phi F) : Vanishes D marker lo hi phi := by
  intro i hi'
  by_cases h2 : OnSide D marker hi i
  · exact h.sides.high i h2
  · exact h.sides.low i (hi'.resolve_right h2) h2

theorem unit_sum {i : Nat} (hi' : i ≤ N) (v : Nat → K) : ∑ k ∈ Finset.range (N + 1), (if k = i then 1 else 0) * v k = v i := by
  rw [Finset.sum_eq_single_of_mem i (Finset.mem_range.2 (by omega))]
  · simp
  · intro j _ hj
    rw [if_neg hj, zero_mul]

/-- **C127 (superposition).** On every triangulation, with any values at the sides and any charges: if `U` and `U'`
are the potentials of two problems, then the potential for the sum of multiples of the values and charges is the sum
of the multiples of the potentials, and so is its gradient. -/
theorem C127_superposition (he : 0 < eps) (hm : Meshed D sh N)
    (hl : ∀ i ≤ N, Linked D (fun i => OnSide D marker lo i ∨ OnSide D marker hi i) i) {d1 d2 d3 : List (String × Int × Val K)} (a b : K)
    (h1 : d1.lookup "rmin" = some (lo, .num v0)) (h1' : d1.lookup "rmax" = some (hi, .num vN))
    (h2 : d2.lookup "rmin" = some (lo, .num w0)) (h2' : d2.lookup "rmax" = some (hi, .num wN))
    (h3 : d3.lookup "rmin" = some (lo, .num (a * v0 + b * w0))) (h3' : d3.lookup "rmax" = some (hi, .num (a * vN + b * wN))) :
    ∃ s1 s2 s3, createOn eps D sh N marker d1 = .ok s1 ∧ createOn eps D sh N marker d2 = .ok s2 ∧ createOn eps D sh N marker d3 = .ok s3 ∧
      ∀ Q1 Q2 Q3 U1 U2 U3 : List K, Q1.length = N + 1 → Q2.length = N + 1 → Q3.length = N + 1 →
        (∀ i ≤ N, Q3.getD i 0 = a * Q1.getD i 0 + b * Q2.getD i 0) →
        Solves N s1.A (applyVecOn (touches D marker) s1.bcs Q1) U1 → Solves N s2.A (applyVecOn (touches D marker) s2.bcs Q2) U2 →
        Solves N s3.A (applyVecOn (touches D marker) s3.bcs Q3) U3 →
        (∀ i ≤ N, U3.getD i 0 = a * U1.getD i 0 + b * U2.getD i 0) ∧
        negEOn D sh U3 = List.zipWith (fun e1 e2 => a • e1 + b • e2) (negEOn D sh U1) (negEOn D sh U2) := by
  obtain ⟨s1, e1, k1⟩ := C94_potential he hm hl h1 h1'
  obtain ⟨s2, e2, k2⟩ := C94_potential he hm hl h2 h2'
  obtain ⟨s3, e3, k3⟩ := C94_potential he hm hl h3 h3'
  refine ⟨s1, s2, s3, e1, e2, e3, fun Q1 Q2 Q3 U1 U2 U3 l1 l2 l3 hQ x1 x2 x3 => ?_⟩
  obtain ⟨F1, f1, y1⟩ := (k1 Q1 l1).2 U1 x1
  obtain ⟨F2, f2, y2⟩ := (k2 Q2 l2).2 U2 x2
  obtain ⟨F3, f3, y3⟩ := (k3 Q3 l3).2 U3 x3
  have hs := es_lin hm y1 y2 a b
  have y3' : Electrostatics eps D sh.vol N marker lo hi (a * v0 + b * w0) (a * vN + b * wN)
      (fun i => a * Q1.getD i 0 + b * Q2.getD i 0) (fun i => U3.getD i 0) F3 := by
    refine ⟨y3.sides, y3.gradient, fun v G hv hG => ?_⟩
    rw [y3.gauss v G hv hG]
    exact Finset.sum_congr rfl fun i hi' => by rw [hQ i (by have := Finset.mem_range.1 hi'; omega)]
  obtain ⟨u1, u2⟩ := C94_unique he hm hl y3' hs
  refine ⟨u1, ?_⟩
  rw [f1, f2, f3, List.zipWith_map_left, List.zipWith_map_right]
  have : ∀ l : List (DSimplex K), (∀ c ∈ l, c ∈ D.cells) → l.map F3 = List.zipWith (fun c c' => a • F1 c + b • F2 c') l l := by
    intro l hl'
    induction l with
    | nil => rfl
    | cons c l ih =>
      rw [List.map_cons, List.zipWith_cons_cons, ih (fun c hc => hl' c (by simp [hc]))]
      congr 1
      have hc := hl' c (by simp)
      rw [u2 c hc, es_grad hm y1 c hc, es_grad hm y2 c hc, gradIn_add, gradIn_smul, gradIn_smul]
      rfl
  exact this _ (fun _ h => h)

/-- **C127 (influence).** There are potentials of unit charges; they are symmetric - a charge at one vertex causes at
another vertex the potential that it would cause there if the two were exchanged - and zero at the sides. -/
theorem C127_influence (he : 0 < eps) (hm : Meshed D sh N)
    (hl : ∀ i ≤ N, Linked D (fun i => OnSide D marker lo i ∨ OnSide D marker hi i) i) :
    (∃ G, Influence eps D sh.vol N marker lo hi G) ∧ ∀ G, Influence eps D sh.vol N marker lo hi G →
      (∀ i ≤ N, ∀ j ≤ N, G i j = G j i) ∧ (∀ i ≤ N, ∀ j, OnSide D marker lo j ∨ OnSide D marker hi j → G i j = 0) ∧
      ∀ G', Influence eps D sh.vol N marker lo hi G' → ∀ i ≤ N, ∀ j ≤ N, G i j = G' i j := by
  refine ⟨?_, fun G hG => ⟨fun i hi' j hj => ?_, fun i hi' j hj => ?_, fun G' hG' i hi' j hj => ?_⟩⟩
  · have : ∀ i, ∃ u : Nat → K, i ≤ N → ∃ F, Electrostatics eps D sh.vol N marker lo hi 0 0 (fun j => if j = i then 1 else 0) u F := by
      intro i
      by_cases hi' : i ≤ N
      · obtain ⟨s, -, k⟩ := C94_potential (v0 := 0) (vN := 0) (d := [("rmin", lo, .num 0), ("rmax", hi, .num 0)]) he hm hl rfl rfl
        obtain ⟨⟨U, hU, -⟩, k2⟩ := k ((List.range (N + 1)).map (fun j => if j = i then 1 else 0)) (by simp)
        obtain ⟨F, -, y⟩ := k2 U hU
        refine ⟨_, fun _ => ⟨F, y.sides, y.gradient, fun v G hv hG => ?_⟩⟩
        rw [y.gauss v G hv hG]
        refine Finset.sum_congr rfl fun k hk => ?_
        have := Finset.mem_range.1 hk
        simp [List.getD_eq_getElem?_getD, this]
      · exact ⟨fun _ => 0, fun h => absurd h hi'⟩
    choose G hG using this
    exact ⟨G, hG⟩
  · obtain ⟨F, y⟩ := hG i hi'
    obtain ⟨F', y'⟩ := hG j hj
    have e1 := es_form hm y (zero_vanishes y')
    have e2 := es_form hm y' (zero_vanishes y)
    rw [unit_sum hi'] at e1
    rw [unit_sum hj] at e2
    rw [form_comm] at e1
    rw [← e2, e1]
  · obtain ⟨F, y⟩ := hG i hi'
    exact zero_vanishes y j hj
  · obtain ⟨F, y⟩ := hG i hi'
    obtain ⟨F', y'⟩ := hG' i hi'
    exact (C94_unique he hm hl y y').1 j hj

/-- How a potential is made up, for charges that are known by what they do to test functions. -/
theorem made_up (hm : Meshed D sh N) {G : Nat → Nat → K} (hG : Influence eps D sh.vol N marker lo hi G) {U0 phi : Nat → K}
    (hU : Vacuum eps D sh.vol N marker lo hi v0 vN U0) (hs : Sides D marker lo hi v0 vN phi) {i : Nat} (hi' : i ≤ N) :
    phi i = U0 i + form eps D sh phi (G i) := by
  obtain ⟨F, y⟩ := hG i hi'
  obtain ⟨F0, y0⟩ := hU
  have hv := sides_vanish hs y0.sides
  have e1 := es_form hm y hv
  rw [unit_sum hi'] at e1
  have e2 := es_form hm y0 (zero_vanishes y)
  rw [form_comm, form_add_left, form_smul_left, e2] at e1
  simp only [zero_mul, Finset.sum_const_zero] at e1
  linear_combination -e1

/-- **C127 (the potential).** The potential that the solver finds is that without charges plus, for each charge, the
charge times its influence, whatever the charges and the values at the sides. -/
theorem C127_potential (he : 0 < eps) (hm : Meshed D sh N)
    (hl : ∀ i ≤ N, Linked D (fun i => OnSide D marker lo i ∨ OnSide D marker hi i) i)
    (h1 : d.lookup "rmin" = some (lo, .num v0)) (h2 : d.lookup "rmax" = some (hi, .num vN))
    {G : Nat → Nat → K} (hG : Influence eps D sh.vol N marker lo hi G) {U0 : Nat → K}
    (hU : Vacuum eps D sh.vol N marker lo hi v0 vN U0) :
    ∃ s, createOn eps D sh N marker d = .ok s ∧ ∀ Q U : List K, Q.length = N + 1 →
      Solves N s.A (applyVecOn (touches D marker) s.bcs Q) U →
      ∀ i ≤ N, U.getD i 0 = U0 i + ∑ j ∈ Finset.range (N + 1), G i j * Q.getD j 0 := by
  obtain ⟨s, e, k⟩ := C94_potential he hm hl h1 h2
  refine ⟨s, e, fun Q U hQ hs i hi' => ?_⟩
  obtain ⟨F, -, y⟩ := (k Q hQ).2 U hs
  obtain ⟨Fi, yi⟩ := hG i hi'
  have e1 := made_up hm hG hU y.sides hi'
  rw [es_form hm y (zero_vanishes yi)] at e1
  rw [e1]
  congr 1
  exact Finset.sum_congr rfl fun j _ => by ring

/-- **C127 (energy).** Charges between grounded sides have energy: the sum over all pairs of charges of their product
times the influence is not negative, and zero only if there is no charge on a free vertex. -/
theorem C127_energy (he : 0 < eps) (hm : Meshed D sh N)
    (hl : ∀ i ≤ N, Linked D (fun i => OnSide D marker lo i ∨ OnSide D marker hi i) i)
    {G : Nat → Nat → K} (hG : Influence eps D sh.vol N marker lo hi G) (q : Nat → K) :
    0 ≤ ∑ i ∈ Finset.range (N + 1), ∑ j ∈ Finset.range (N + 1), q i * q j * G i j ∧
    (∑ i ∈ Finset.range (N + 1), ∑ j ∈ Finset.range (N + 1), q i * q j * G i j = 0 → ∀ i ≤ N, Free D marker lo hi i → q i = 0) := by
  obtain ⟨s, -, k⟩ := C94_potential (v0 := 0) (vN := 0) (d := [("rmin", lo, .num 0), ("rmax", hi, .num 0)]) he hm hl rfl rfl
  obtain ⟨⟨U, hU, -⟩, k2⟩ := k ((List.range (N + 1)).map q) (by simp)
  obtain ⟨F, -, y⟩ := k2 U hU
  have hq : ∀ i ≤ N, ((List.range (N + 1)).map q).getD i 0 = q i := by
    intro i hi'
    simp [List.getD_eq_getElem?_getD, Nat.lt_succ_of_le hi']
  have hv := zero_vanishes y
  have hvac : Vacuum eps D sh.vol N marker lo hi 0 0 (fun _ => (0 : K)) := by
    refine ⟨_, es_of_form hm ⟨fun _ _ _ => rfl, fun _ _ => rfl⟩ fun v hv => ?_⟩
    have := form_smul_left (D := D) (sh := sh) eps 0 (fun _ => 0) v
    simp only [zero_mul] at this
    rw [this]
    simp
  have eU : ∀ i ≤ N, U.getD i 0 = ∑ j ∈ Finset.range (N + 1), q j * G i j := by
    intro i hi'
    have e1 := made_up hm hG hvac y.sides hi'
    obtain ⟨Fi, yi⟩ := hG i hi'
    rw [es_form hm y (zero_vanishes yi), zero_add] at e1
    rw [e1]
    exact Finset.sum_congr rfl fun j hj => by rw [hq j (by have := Finset.mem_range.1 hj; omega)]
  have ef : form eps D sh (fun i => U.getD i 0) (fun i => U.getD i 0) =
      ∑ i ∈ Finset.range (N + 1), ∑ j ∈ Finset.range (N + 1), q i * q j * G i j := by
    rw [es_form hm y hv]
    refine Finset.sum_congr rfl fun i hi' => ?_
    have hi' : i ≤ N := by have := Finset.mem_range.1 hi'; omega
    rw [hq i hi', eU i hi', Finset.mul_sum]
    exact Finset.sum_congr rfl fun j _ => by ring
  rw [← ef]
  refine ⟨form_self_nonneg hm he _, fun hz i hi' hfree => ?_⟩
  have hzero : ∀ j ≤ N, U.getD j 0 = 0 := fun j hj => form_definite hm he hz hv (hl j hj)
  have hvu : Vanishes D marker lo hi (fun j => if j = i then (1 : K) else 0) := by
    intro j hj
    refine if_neg ?_
    rintro rfl
    exact hj.elim hfree.1 hfree.2
  have e1 := es_form hm y hvu
  have e2 : ∑ k ∈ Finset.range (N + 1), ((List.range (N + 1)).map q).getD k 0 * (if k = i then 1 else 0) = q i := by
    have := unit_sum hi' (fun k => ((List.range (N + 1)).map q).getD k 0)
    rw [hq i hi'] at this
    rw [← this]
    exact Finset.sum_congr rfl fun _ _ => mul_comm _ _
  rw [e2, ← form_eq hm] at e1
  rw [← e1]
  refine Finset.sum_eq_zero fun k _ => ?_
  rw [Finset.sum_eq_zero fun j hj => by rw [hzero j (by have := Finset.mem_range.1 hj; omega), mul_zero], mul_zero]

/-- **C127 (order), part.** Without obtuse angles more charge and higher values at the sides nowhere lower the
potential; in particular influences are not negative.  Missing: obtuse angles, for which it is false. -/
theorem C127_order_partial (he : 0 < eps) (hm : Meshed D sh N) (ha : NotObtuse D sh)
    (hl : ∀ i ≤ N, Linked D (fun i => OnSide D marker lo i ∨ OnSide D marker hi i) i) {d1 d2 : List (String × Int × Val K)}
    (h1 : d1.lookup "rmin" = some (lo, .num v0)) (h1' : d1.lookup "rmax" = some (hi, .num vN))
    (h2 : d2.lookup "rmin" = some (lo, .num w0)) (h2' : d2.lookup "rmax" = some (hi, .num wN)) (h0 : v0 ≤ w0) (hN : vN ≤ wN) :
    (∃ s1 s2, createOn eps D sh N marker d1 = .ok s1 ∧ createOn eps D sh N marker d2 = .ok s2 ∧
      ∀ Q1 Q2 U1 U2 : List K, Q1.length = N + 1 → Q2.length = N + 1 → (∀ i ≤ N, Q1.getD i 0 ≤ Q2.getD i 0) →
        Solves N s1.A (applyVecOn (touches D marker) s1.bcs Q1) U1 → Solves N s2.A (applyVecOn (touches D marker) s2.bcs Q2) U2 →
        ∀ i ≤ N, U1.getD i 0 ≤ U2.getD i 0) ∧
    ∀ G, Influence eps D sh.vol N marker lo hi G → ∀ i ≤ N, ∀ j ≤ N, 0 ≤ G i j := by
  obtain ⟨s1, e1, k1⟩ := C94_potential he hm hl h1 h1'
  obtain ⟨s2, e2, k2⟩ := C94_potential he hm hl h2 h2'
  refine ⟨⟨s1, s2, e1, e2, fun Q1 Q2 U1 U2 l1 l2 hQ x1 x2 i hi' => ?_⟩, fun G hG i hi' j hj => ?_⟩
  · obtain ⟨F1, f1, y1⟩ := (k1 Q1 l1).2 U1 x1
    obtain ⟨F2, f2, y2⟩ := (k2 Q2 l2).2 U2 x2
    have hs := es_lin hm y2 y1 1 (-1)
    have := (C95_range_partial he hm ha hl hs).2 (fun i hi => by have := hQ i hi; linarith) i hi'
    have hmin : 0 ≤ min (1 * w0 + -1 * v0) (1 * wN + -1 * vN) := le_min (by linarith) (by linarith)
    linarith
  · obtain ⟨F, y⟩ := hG i hi'
    have := (C95_range_partial he hm ha hl y).2 (fun i hi => by split <;> norm_num) j hj
    simpa using this

end

section
variable {V α σ φ : Type} {cfg : Cfg K V α σ φ} {D : DMesh K g} {sh : Shape K g} {N : Nat} {marker : Int → Int} {s : Solver K}
  {pos : α → Vec K g} {fld : List (Vec K g) → φ} {onMesh : α → Bool}

/-- **C127 (simulations).** In every state of a simulation on a triangulation the potential at each vertex is that
without charges plus the sum over the particles present of charge times the influence of the vertex at the position
of the particle. -/
theorem C127_run {dv : Nat → Nat} {sl C : Nat} (hc : GoodCfg cfg) (hg : GoodMesh cfg onMesh dv (N + 1) C) {z : Species.HRow K} (n : Nat)
    (init : Option (List (String × List α))) {st : State K V α σ φ} {i : Ideal K V α σ} {b : List K}
    (hf : Fresh sl (N + 1) C n z st i b) (hnone : st.writer = none → cfg.partEvery = none)
    {eps : K} {lo hi : Int} {v0 vN : K} {dd : List (String × Int × Val K)} (he : 0 < eps) (hm : Meshed D sh N)
    (hl : ∀ i ≤ N, Linked D (fun i => OnSide D marker lo i ∨ OnSide D marker hi i) i)
    (h1 : dd.lookup "rmin" = some (lo, .num v0)) (h2 : dd.lookup "rmax" = some (hi, .num vN))
    (hs : createOn eps D sh N marker dd = .ok s) (ho : OnMeshed cfg D sh N marker s pos fld onMesh)
    {i0 : Ideal K V α σ} {is : List (Ideal K V α σ)}
    (hr : Ideal.run cfg sl (N + 1) onMesh init b n i = .ok (i0, is))
    {G : Nat → Nat → K} (hG : Influence eps D sh.vol N marker lo hi G) {U0 : Nat → K}
    (hU : Vacuum eps D sh.vol N marker lo hi v0 vN U0) :
    ∃ st', run cfg init n st = .ok st' ∧ Outcome cfg dv C init.isSome b st st' i0 is ∧
      ∀ j ∈ (if init.isSome then [i0] else []) ++ is, ∀ k ≤ N, ∀ val : α → K,
        (∀ q ∈ chargedParticles cfg j.pops, ∃ c ∈ D.cells, c.index = cfg.A.cell q.2 ∧ ValueAt D c (G k) (pos q.2) (val q.2)) →
        j.phi.getD k 0 = U0 k + ((chargedParticles cfg j.pops).map (fun q => q.1 * val q.2)).sum := by
  obtain ⟨st', r1, r2, key⟩ := C96_gauss hc hg n init hf hnone he hm hl h1 h2 hs ho hr
  refine ⟨st', r1, r2, fun j hj k hk val hval => ?_⟩
  obtain ⟨F, -, e2, e3, e4⟩ := key j hj
  obtain ⟨Fk, yk⟩ := hG k hk
  have e := e4 (G k) Fk val (zero_vanishes yk) yk.gradient hval
  rw [← e, made_up hm hG hU e2 hk]
  congr 1
  exact pairing_congr (fun c hc => (isGrad_unique hm hc (e3 c hc) (isGrad_gradIn hm hc _)).symm)
    (fun c hc => (es_grad hm yk c hc).symm)

end

/-! ### One dimension -/

section
variable {eps : K} {co : Coord} {x : Nat → K} {N : Nat} {marker : Nat → Int} {lo hi : Int} {v0 : Val K} {vN : K}
  {d : List (String × Int × Val K)}

/-- The elements of the one-dimensional solvers, with the volumes that belong to the coordinates. -/
def lineShape (co : Coord) (x : Nat → K) : Shape K 1 :=
  { intervalShape x with vol := fun c => weight co (x c.index.toNat) (x (c.index.toNat + 1)) }

/-- The marks by number of facet. -/
def intMarks (marker : Nat → Int) (F : Int) : Int := marker F.toNat

theorem cell_index (i : Nat) : (intervalCell (K := K) i).index.toNat = i := by simp [intervalCell]

theorem line_slope (c j : Nat) : gradIn (lineShape co x) (intervalCell c) (unit j) = ![slope x c j] := by
  funext e
  have : e = 0 := Subsingleton.elim _ _
  subst this
  simp only [gradIn, Finset.sum_range_succ, Finset.sum_range_zero, zero_add, lineShape, intervalShape, cell_index]
  simp only [intervalCell, unit, slope, List.getD_cons_zero, List.getD_cons_succ, Matrix.cons_val_zero]
  by_cases h1 : j = c
  · subst h1; simp
  · by_cases h2 : j = c + 1
    · subst h2; simp
    · have a1 : ¬ c = j := fun h => h1 h.symm
      have a2 : ¬ c + 1 = j := fun h => h2 h.symm
      simp [h1, h2, a1, a2]

theorem line_stiffness (i j : Nat) : stiffnessOn eps (intervalD x N) (lineShape co x) i j = stiffness eps co x N i j := by
  unfold stiffnessOn stiffness intervalD
  rw [List.map_map, Finset.sum_range, ← List.sum_ofFn]
  congr 1
  rw [← List.map_coe_finRange_eq_range, List.map_map, List.ofFn_eq_map]
  refine List.map_congr_left fun c _ => ?_
  simp only [Function.comp, line_slope]
  simp only [lineShape, cell_index, dot, Finset.univ_unique, Finset.sum_singleton, Fin.default_eq_zero, Matrix.cons_val_zero]

theorem line_side (hN : 1 ≤ N) {tag : Int} {i : Nat} (hi' : i ≤ N) :
    OnSide (intervalD x N) (intMarks marker) tag i ↔ marker i = tag := by
  constructor
  · rintro ⟨c, hc, k, F, hk, hF, hm, j, hj, hv⟩
    obtain ⟨a, ha, rfl⟩ := interval_mem.1 hc
    simp only [onFacet, if_true] at hj
    subst hj
    have : j = 0 ∨ j = 1 := by omega
    rcases this with rfl | rfl
    · simp only [intervalCell, List.getElem?_cons_zero, Option.some.injEq] at hF hv
      subst hF hv
      simpa [intMarks] using hm
    · simp only [intervalCell, List.getElem?_cons_succ, List.getElem?_cons_zero, Option.some.injEq] at hF hv
      subst hF hv
      have e : ((a : Int) + 1).toNat = a + 1 := by omega
      simpa [intMarks, e] using hm
  · intro h
    by_cases h0 : i = N
    · have e : ((i - 1 : Nat) : Int) + 1 = i := by omega
      refine ⟨intervalCell (i - 1), interval_mem.2 ⟨i - 1, by omega, rfl⟩, 1, (i : Int), by omega, ?_, by simpa [intMarks] using h, 1, ?_, ?_⟩
      · simp [intervalCell, e]
      · simp [onFacet]
      · have : i - 1 + 1 = i := by omega
        simp [intervalCell, this]
    · refine ⟨intervalCell i, interval_mem.2 ⟨i, by omega, rfl⟩, 0, (i : Int), by omega, ?_, by simpa [intMarks] using h, 0, ?_, ?_⟩
      · simp [intervalCell]
      · simp [onFacet]
      · simp [intervalCell]

theorem line_weight (hg : Grid co x N) {c : Nat} (hc : c < N) : 0 < weight co (x c) (x (c + 1)) := by
  have h := hg.lt c hc
  cases co with
  | cartesian => exact sub_pos.2 h
  | spherical =>
    have h0 : 0 ≤ x c := (hg.nonneg rfl).trans (interval_le (fun i hi => hg.lt i hi) (by omega) (Nat.zero_le _))
    have : 0 < (x (c + 1) - x c) * (x (c + 1) * x (c + 1) + x (c + 1) * x c + x c * x c) := by
      have : 0 < x (c + 1) := by linarith
      exact mul_pos (by linarith) (by positivity)
    have e : weight .spherical (x c) (x (c + 1)) = (x (c + 1) - x c) * (x (c + 1) * x (c + 1) + x (c + 1) * x c + x c * x c) / 3 := by
      simp only [weight]; ring
    rw [e]
    positivity

theorem line_meshed (hg : Grid co x N) : Meshed (intervalD x N) (lineShape co x) N := by
  have h := C122_meshed (x := x) (N := N) (fun i hi => hg.lt i hi)
  refine ⟨h.corners, h.range, h.basis, fun c hc => ?_⟩
  obtain ⟨i, hi, rfl⟩ := interval_mem.1 hc
  simpa only [lineShape, cell_index] using line_weight hg hi

theorem line_notObtuse (hg : Grid co x N) : NotObtuse (intervalD x N) (lineShape co x) := by
  intro c hc k l hkl
  obtain ⟨i, hi, rfl⟩ := interval_mem.1 hc
  have h : 0 < x (i + 1) - x i := sub_pos.2 (hg.lt i hi)
  have h' : 0 < (x (i + 1) - x i)⁻¹ := inv_pos.2 h
  fin_cases k <;> fin_cases l <;> first | exact absurd rfl hkl | skip
  all_goals
    simp [dot, lineShape, intervalShape, cell_index]
    have e : -1 / (x (i + 1) - x i) = -(x (i + 1) - x i)⁻¹ := by rw [neg_div, one_div]
    rw [e]
    nlinarith

theorem line_linked (hN : 1 ≤ N) {hi' lo' : Int} (h : marker N = hi') :
    ∀ i ≤ N, Linked (intervalD x N) (fun i => OnSide (intervalD x N) (intMarks marker) lo' i ∨ OnSide (intervalD x N) (intMarks marker) hi' i) i := by
  intro i hi
  obtain ⟨k, rfl⟩ := Nat.exists_eq_add_of_le hi
  clear hi
  induction k generalizing i with
  | zero => exact .base (.inr ((line_side hN le_rfl).2 h))
  | succ k ih =>
    have e : i + 1 + k = i + (k + 1) := by omega
    have := ih (i + 1) (by omega) (by rw [e]; exact h)
    rw [e] at this
    exact .step (c := intervalCell i) (i := i + 1) (interval_mem.2 ⟨i, by omega, rfl⟩) (by simp [intervalCell]) (by simp [intervalCell]) this

/-- The lower end: its tag, or that of the upper end if it is left open. -/
def lowTag (lo hi : Int) : Val K → Int
  | .num _ => lo
  | .unset => hi

theorem line_solves (hN : 1 ≤ N) {Q U : List K} (hQ : Q.length = N + 1) :
    Solves N (Poisson.made eps co x N marker lo hi v0 vN).A (applyVec marker (Poisson.made eps co x N marker lo hi v0 vN).bcs Q) U ↔
    Solves N (madeOn eps (intervalD x N) (lineShape co x) N (intMarks marker) (lowTag lo hi v0) hi (lowValue vN v0) vN).A
      (applyVecOn (touches (intervalD x N) (intMarks marker)) [(lowTag lo hi v0, lowValue vN v0), (hi, vN)] Q) U := by
  unfold Solves
  refine and_congr_right fun _ => forall_congr' fun i => forall_congr' fun hi' => ?_
  have ht : ∀ tag, touches (intervalD x N) (intMarks marker) tag i = decide (marker i = tag) := by
    intro tag
    rw [Bool.eq_iff_iff, touches_iff, line_side hN hi', decide_eq_true_iff]
  rw [rhs_eq (by omega)]
  have eA : ∀ j, (Poisson.made eps co x N marker lo hi v0 vN).A i j =
      (madeOn eps (intervalD x N) (lineShape co x) N (intMarks marker) (lowTag lo hi v0) hi (lowValue vN v0) vN).A i j := by
    intro j
    rw [row_eq, ht, ht, line_stiffness]
    cases v0 with
    | unset =>
      simp only [Poisson.made, bcList, applyMat, List.foldl_cons, List.foldl_nil, lowTag, decide_eq_true_iff]
      by_cases h1 : marker i = hi <;> simp [h1]
    | num v =>
      simp only [Poisson.made, bcList, applyMat, List.foldl_cons, List.foldl_nil, lowTag, decide_eq_true_iff]
      by_cases h1 : marker i = hi <;> by_cases h2 : marker i = lo <;> simp [h1, h2]
  have eb : (applyVec marker (Poisson.made eps co x N marker lo hi v0 vN).bcs Q).getD i 0 =
      if touches (intervalD x N) (intMarks marker) hi i then vN
      else if touches (intervalD x N) (intMarks marker) (lowTag lo hi v0) i then lowValue vN v0 else Q.getD i 0 := by
    have hiQ : i < Q.length := by omega
    rw [ht, ht]
    cases v0 with
    | unset =>
      simp only [Poisson.made, bcList, applyVec, List.foldl_cons, List.foldl_nil, lowTag, lowValue, decide_eq_true_iff, List.getD_eq_getElem?_getD,
        List.getElem?_mapIdx]
      rw [List.getElem?_eq_getElem hiQ]
      by_cases h1 : marker i = hi <;> simp [h1]
    | num v =>
      simp only [Poisson.made, bcList, applyVec, List.foldl_cons, List.foldl_nil, lowTag, lowValue, decide_eq_true_iff, List.getD_eq_getElem?_getD,
        List.getElem?_mapIdx]
      rw [List.getElem?_eq_getElem hiQ]
      by_cases h1 : marker i = hi <;> by_cases h2 : marker i = lo <;> simp [h1, h2]
  simp only [eA, eb]

/-- **C127 (one dimension).** For both one-dimensional solvers, with or without a given potential at the lower end of
the radii: there is one symmetric influence `G`, nowhere negative, such that for all values at the ends and all
charges the potential is that without charges, which lies between the values at the ends, plus the sum of the charges
times their influence. -/
theorem C127_one_d (he : 0 < eps) (hg : Grid co x N) (hm : Marks marker N lo hi) (isOpen : Bool) :
    ∃ G : Nat → Nat → K, (∀ i ≤ N, ∀ j ≤ N, G i j = G j i ∧ 0 ≤ G i j) ∧ (∀ i ≤ N, G i N = 0) ∧ (isOpen = false → ∀ i ≤ N, G i 0 = 0) ∧
      ∀ (v0 : Val K) (vN : K) (d : List (String × Int × Val K)), Given co d lo hi v0 vN → (v0 = .unset ↔ isOpen = true) →
        ∃ (s : Solver K) (U0 : Nat → K), create eps co x N marker d = .ok s ∧
          (∀ i ≤ N, min (lowValue vN v0) vN ≤ U0 i ∧ U0 i ≤ max (lowValue vN v0) vN) ∧
          ∀ Q U : List K, Q.length = N + 1 → Solves N s.A (applyVec marker s.bcs Q) U →
            ∀ i ≤ N, U.getD i 0 = U0 i + ∑ j ∈ Finset.range (N + 1), G i j * Q.getD j 0 := by
  have hme := line_meshed hg
  let lt : Int := if isOpen then hi else lo
  have hl := line_linked (x := x) (lo' := lt) hg.pos hm.last
  obtain ⟨⟨G, hG⟩, key⟩ := C127_influence he hme hl
  obtain ⟨k1, k2, -⟩ := key G hG
  have kpos := (C127_order_partial (v0 := 0) (vN := 0) (w0 := 0) (wN := 0) (d1 := [("rmin", lt, .num 0), ("rmax", hi, .num 0)])
    (d2 := [("rmin", lt, .num 0), ("rmax", hi, .num 0)]) he hme (line_notObtuse hg) hl rfl rfl rfl rfl le_rfl le_rfl).2 G hG
  refine ⟨G, fun i hi' j hj => ⟨k1 i hi' j hj, kpos i hi' j hj⟩, fun i hi' => k2 i hi' N (.inr ((line_side hg.pos le_rfl).2 hm.last)),
    fun ho i hi' => k2 i hi' 0 (.inl ((line_side hg.pos (Nat.zero_le _)).2 ?_)), fun v0 vN d hd hopen => ?_⟩
  · simp only [lt, ho]
    exact hm.first
  · have elt : lowTag lo hi v0 = lt := by
      cases v0 with
      | unset => simp [lowTag, lt, hopen.1 rfl]
      | num v =>
        have : isOpen = false := by
          cases isOpen with
          | false => rfl
          | true => cases hopen.2 rfl
        simp [lowTag, lt, this]
    let d' : List (String × Int × Val K) := [("rmin", lt, .num (lowValue vN v0)), ("rmax", hi, .num vN)]
    obtain ⟨s, es, k⟩ := C94_potential (d := d') he hme hl rfl rfl
    obtain ⟨⟨U, hU, -⟩, k3⟩ := k ((List.range (N + 1)).map (fun _ => 0)) (by simp)
    obtain ⟨F, -, y⟩ := k3 U hU
    have hz : ∀ i, ((List.range (N + 1)).map (fun _ => (0 : K))).getD i 0 = 0 := by
      intro i
      rw [List.getD_eq_getElem?_getD, List.getElem?_map]
      cases (List.range (N + 1))[i]? <;> rfl
    have hv : Vacuum eps (intervalD x N) (lineShape co x).vol N (intMarks marker) lt hi (lowValue vN v0) vN (fun i => U.getD i 0) :=
      ⟨F, y.sides, y.gradient, fun v G hv hG => by rw [y.gauss v G hv hG]; simp only [hz]⟩
    obtain ⟨r1, r2⟩ := C95_range_partial he hme (line_notObtuse hg) hl y
    refine ⟨_, fun i => U.getD i 0, create_eq hd, fun i hi' => ⟨r2 (fun i _ => by simp only [hz]; exact le_rfl) i hi', r1 (fun i _ => by simp only [hz]; exact le_rfl) i hi'⟩,
      fun Q W hQ hW i hi' => ?_⟩
    obtain ⟨s', es', k'⟩ := C127_potential (d := d') he hme hl rfl rfl hG hv
    rw [createOn_eq (lo := lt) (hi := hi) (v0 := lowValue vN v0) (vN := vN) rfl rfl] at es'
    cases es'
    refine k' Q W hQ ?_ i hi'
    have := (line_solves hg.pos hQ).1 hW
    rw [elt] at this
    exact this

end

/-! ### Cases -/

-- The kite.
example (b : Bool) {G} (hG : Influence 1 (kite b) (kiteShape b).vol 3 kiteMarks 1 2 G) :=
  C127_energy (eps := (1 : ℚ)) one_pos (kite_meshed b) (kite_linked b) hG
example (n : Nat) {i0 is} (hr : Ideal.run kiteCfg 2 4 onKite (some kiteInit) [0, 0, 0, 0] n kiteIdeal = .ok (i0, is))
    {G} (hG : Influence 1 (kite false) (kiteShape false).vol 3 kiteMarks 1 2 G)
    {U0} (hU : Vacuum 1 (kite false) (kiteShape false).vol 3 kiteMarks 1 2 0 1 U0) :=
  C127_run kite_goodCfg kite_goodMesh n (some kiteInit) (kite_fresh n) (by simp [kiteState]) (eps := 1) one_pos
    (kite_meshed false) (kite_linked false) (dd := kiteBCs) rfl rfl (by rfl) kite_onMeshed hr hG hU
-- Both one-dimensional solvers, with and without a given potential at the lower end.
example (co : Coord) (isOpen : Bool) := C127_one_d (eps := (1 : ℚ)) one_pos (demo_grid co) demo_marks isOpen
example (b : Bool) := C127_influence (eps := (1 : ℚ)) one_pos (kite_meshed b) (kite_linked b)
example := C127_order_partial (eps := (1 : ℚ)) one_pos (kite_meshed false) kite_notObtuse (kite_linked false) (d1 := kiteBCs)
  (d2 := [("rmax", 2, .num 3), ("rmin", 1, .num 0)]) rfl rfl rfl rfl le_rfl (by norm_num)
example (b : Bool) := C127_superposition (eps := (1 : ℚ)) one_pos (kite_meshed b) (kite_linked b) (d1 := kiteBCs)
  (d2 := [("rmax", 2, .num 3), ("rmin", 1, .num 5)]) (d3 := [("rmax", 2, .num (2 * 1 + 4 * 3)), ("rmin", 1, .num (2 * 0 + 4 * 5))]) 2 4 rfl rfl rfl rfl rfl rfl

/-- **C127 (order) is false with obtuse angles**: raising the potential of a side lowers the potential at a free
vertex. -/
theorem C127_false_order : ∃ s1 s2, createOn (1 : ℚ) (kite true) (kiteShape true) 3 kiteMarks [("rmax", 2, .num 0), ("rmin", 1, .num 0)] = .ok s1 ∧
    createOn (1 : ℚ) (kite true) (kiteShape true) 3 kiteMarks [("rmax", 2, .num 0), ("rmin", 1, .num 1)] = .ok s2 ∧
    Solves 3 s1.A s1.b [0, 0, 0, 0] ∧ Solves 3 s2.A s2.b [1, 0, 0, -1 / 2] := by
  refine ⟨_, _, createOn_eq (lo := 1) (hi := 2) (v0 := 0) (vN := 0) rfl rfl, createOn_eq (lo := 1) (hi := 2) (v0 := 1) (vN := 0) rfl rfl,
    ⟨rfl, ?_⟩, ⟨rfl, ?_⟩⟩ <;> decide +kernel

end Dt
