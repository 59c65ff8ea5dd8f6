import Verif.Props.Elements
import Verif.Props.PoissonLoop
import Verif.Props.Simulation

/-!
# The electric field of a simulation on any triangulation (C96)
-/

set_option linter.unusedSectionVars false

namespace Dt
open Spec Poisson Topology TimeLoop
variable {K V α σ φ : Type} [Field K] [LinearOrder K] [IsStrictOrderedRing K] {g : Nat}

/-- A simulation with the solver `s` on a triangulation. -/
structure Spec.OnMeshed (cfg : Cfg K V α σ φ) (D : DMesh K g) (sh : Shape K g) (N : Nat) (marker : Int → Int) (s : Solver K)
    (pos : α → Vec K g) (fld : List (Vec K g) → φ) (onMesh : α → Bool) : Prop where
  space : cfg.SD = meshSpace D sh cfg.A.cell pos
  bc : cfg.bc = applyVecOn (touches D marker) s.bcs
  solve : ∀ b : List K, b.length = N + 1 → Solves N s.A b (cfg.solve b)
  field : cfg.fieldOf = fun phi => fld (negEOn D sh phi)
  nodup : (D.cells.map (·.index)).Nodup
  cell : ∀ p, onMesh p = true → ∃ c ∈ D.cells, c.index = cfg.A.cell p

/-- The particles of a state as point charges: charge times weight times factor, and the particle. -/
def Spec.chargedParticles (cfg : Cfg K V α σ φ) (pops : List (Pop K V α)) : List (K × α) :=
  pops.flatMap (fun p => p.st.items.map (fun q => (p.charge * cfg.A.weight q * cfg.factor.getD 1, q)))

section
variable {cfg : Cfg K V α σ φ} {D : DMesh K g} {sh : Shape K g} {N : Nat} {marker : Int → Int} {s : Solver K}
  {pos : α → Vec K g} {fld : List (Vec K g) → φ} {onMesh : α → Bool}

theorem charge_particles (cfg : Cfg K V α σ φ) (pops : List (Pop K V α)) (j : Nat) :
    chargeAt cfg pops j * cfg.factor.getD 1 =
      ((chargedParticles cfg pops).map (fun q => q.1 * share (cfg.SD.dofs (cfg.A.cell q.2)) (cfg.SD.basis q.2) j)).sum := by
  unfold chargeAt chargedParticles
  induction pops with
  | nil => simp
  | cons p ps ih =>
    rw [List.map_cons, List.sum_cons, List.flatMap_cons, List.map_append, List.sum_append, ← ih, add_mul]
    congr 1
    rw [List.map_map]
    generalize p.st.items = xs
    induction xs with
    | nil => simp
    | cons q qs ihq =>
      simp only [List.map_cons, List.sum_cons, Function.comp_apply] at ihq ⊢
      rw [← ihq]
      simp only [contrib]
      ring

theorem share_sum {idx : List Nat} {n : Nat} (hn : ∀ i ∈ idx, i < n) (b : List K) (v : Nat → K) :
    ∑ j ∈ Finset.range n, share idx b j * v j = ((idx.zip b).map (fun db => v db.1 * db.2)).sum := by
  induction idx generalizing b with
  | nil => simp [share]
  | cons i idx ih =>
    cases b with
    | nil => simp [share]
    | cons x b =>
      have := ih (fun i hi => hn i (by simp [hi])) b
      simp only [share, List.zip_cons_cons, List.map_cons, List.sum_cons, add_mul, Finset.sum_add_distrib] at this ⊢
      rw [this]
      congr 1
      rw [Finset.sum_eq_single_of_mem i (Finset.mem_range.2 (hn i (by simp)))]
      · simp [mul_comm]
      · intro j _ hj
        rw [if_neg (Ne.symm hj), zero_mul]

theorem find_cell (h : OnMeshed cfg D sh N marker s pos fld onMesh) {c : DSimplex K} (hc : c ∈ D.cells) {n : Nat} (hi : c.index = n) :
    D.cells.find? (fun s => decide (s.index = (n : Int))) = some c := by
  cases e : D.cells.find? (fun s => decide (s.index = (n : Int))) with
  | none =>
    have := List.find?_eq_none.1 e c hc
    simp [hi] at this
  | some c' =>
    have h1 := List.mem_of_find?_eq_some e
    have h2 := List.find?_some e
    simp only [decide_eq_true_eq] at h2
    rw [(List.inj_on_of_nodup_map h.nodup) h1 hc (h2.trans hi.symm)]

/-- The shares of a particle, summed up with the values of a function, give the value at the particle. -/
theorem deposit_value (hm : Meshed D sh N) (h : OnMeshed cfg D sh N marker s pos fld onMesh) {q : α} {c : DSimplex K} (hc : c ∈ D.cells)
    (hi : c.index = cfg.A.cell q) {v : Nat → K} {y : K} (hy : ValueAt D c v (pos q) y) :
    ∑ j ∈ Finset.range (N + 1), share (cfg.SD.dofs (cfg.A.cell q)) (cfg.SD.basis q) j * v j = y := by
  have hlen := hm.corners c hc
  have hd : cfg.SD.dofs (cfg.A.cell q) = c.verts := by
    rw [h.space]
    simp only [meshSpace, find_cell h hc hi, Option.map_some, Option.getD_some]
  have hb : cfg.SD.basis q = (List.range (g + 1)).map (fun k => (if k = 0 then 1 else 0) + dot (sh.grad c k) (pos q - D.coord (c.verts.getD 0 0))) := by
    rw [h.space]
    simp only [meshSpace, find_cell h hc hi, Option.map_some, Option.getD_some]
  rw [share_sum (n := N + 1) (by rw [hd]; intro i hi'; have := hm.range c hc i hi'; omega), hd, hb]
  obtain ⟨w, hw1, hw2, rfl⟩ := hy
  have hk : ∀ k : Fin (g + 1), (if k.1 = 0 then (1 : K) else 0) + dot (sh.grad c k) (pos q - D.coord (c.verts.getD 0 0)) = w k := by
    intro k
    have e0 : D.coord (c.verts.getD 0 0) = corner D c 0 := by rw [List.getD_eq_getElem?_getD]; rfl
    have e1 : dot (sh.grad c k) (pos q - D.coord (c.verts.getD 0 0)) =
        ∑ i, w i * dot (sh.grad c k) (corner D c i - corner D c 0) := by
      rw [e0]
      simp only [dot, Finset.mul_sum]
      rw [Finset.sum_comm]
      refine Finset.sum_congr rfl fun e _ => ?_
      have : (pos q - corner D c 0) e = ∑ i, w i * (corner D c i - corner D c 0) e := by
        simp only [Pi.sub_apply, mul_sub, Finset.sum_sub_distrib, ← hw2 e, ← Finset.sum_mul, hw1, one_mul]
      rw [this, Finset.mul_sum]
      exact Finset.sum_congr rfl fun i _ => by ring
    rw [e1]
    simp only [hm.basis c hc, mul_sub, Finset.sum_sub_distrib, mul_ite, mul_one, mul_zero]
    rw [Finset.sum_ite_eq]
    simp only [Finset.mem_univ, if_true]
    by_cases h0 : k = 0
    · subst h0
      simp [hw1]
    · have : k.1 ≠ 0 := fun h => h0 (Fin.ext h)
      simp [h0]
  have e2 : (c.verts.zip ((List.range (g + 1)).map (fun k => (if k = 0 then (1 : K) else 0) + dot (sh.grad c k) (pos q - D.coord (c.verts.getD 0 0))))).map
      (fun db => v db.1 * db.2) = List.ofFn (fun i : Fin (g + 1) => w i * v ((c.verts[i.1]?).getD 0)) := by
    refine List.ext_getElem (by simp [hlen]) fun i h1 h2 => ?_
    simp only [List.length_ofFn] at h2
    simp only [List.getElem_map, List.getElem_zip, List.getElem_range, List.getElem_ofFn]
    rw [List.getElem?_eq_getElem (by omega), Option.getD_some, hk ⟨i, h2⟩, mul_comm]
  rw [e2, List.sum_ofFn]

/-- C96.  In every simulation on a triangulation, in any dimension: in every state after a step (and in the first, if
there are initial particles), the potential has the given values at the sides and the electric field obeys Gauss's law
for the particles present, as point charges: tested with any function `v` that is linear in each cell and zero at the
sides, the field gives the sum of the charges times `v` at their positions. -/
theorem C96_gauss {d : Nat → Nat} {sl C : Nat} (hc : GoodCfg cfg) (hg : GoodMesh cfg onMesh d (N + 1) C) {z : Species.HRow K} (n : Nat)
    (init : Option (List (String × List α))) {st : State K V α σ φ} {i : Ideal K V α σ} {b : List K}
    (hf : Fresh sl (N + 1) C n z st i b) (hnone : st.writer = none → cfg.partEvery = none)
    {eps : K} {lo hi : Int} {v0 vN : K} {dd : List (String × Int × Val K)} (he : 0 < eps) (hm : Meshed D sh N)
    (hl : ∀ i ≤ N, Linked D (fun i => OnSide D marker lo i ∨ OnSide D marker hi i) i)
    (h1 : dd.lookup "rmin" = some (lo, .num v0)) (h2 : dd.lookup "rmax" = some (hi, .num vN))
    (hs : createOn eps D sh N marker dd = .ok s) (ho : OnMeshed cfg D sh N marker s pos fld onMesh)
    {i0 : Ideal K V α σ} {is : List (Ideal K V α σ)}
    (hr : Ideal.run cfg sl (N + 1) onMesh init b n i = .ok (i0, is)) :
    ∃ st', run cfg init n st = .ok st' ∧ Outcome cfg d C init.isSome b st st' i0 is ∧
      ∀ j ∈ (if init.isSome then [i0] else []) ++ is, ∃ F : DSimplex K → Vec K g,
        cfg.fieldOf j.phi = fld (D.cells.map F) ∧
        Sides D marker lo hi v0 vN (fun k => j.phi.getD k 0) ∧
        (∀ c ∈ D.cells, IsGrad D c (fun k => j.phi.getD k 0) (F c)) ∧
        ∀ v G (val : α → K), Vanishes D marker lo hi v → (∀ c ∈ D.cells, IsGrad D c v (G c)) →
          (∀ q ∈ chargedParticles cfg j.pops, ∃ c ∈ D.cells, c.index = cfg.A.cell q.2 ∧ ValueAt D c v (pos q.2) (val q.2)) →
          pairing eps D sh.vol F G = ((chargedParticles cfg j.pops).map (fun q => q.1 * val q.2)).sum := by
  have key1 := C68_run hc hg n init hf hnone
  rw [hr] at key1
  obtain ⟨hlen, st', e, hout⟩ := key1
  refine ⟨st', e, hout, fun j hj => ?_⟩
  obtain ⟨hphi, hon⟩ := (run_phi hr).2 j hj
  obtain ⟨s', hs', hpot⟩ := C94_potential he hm hl h1 h2
  rw [hs] at hs'
  cases hs'
  have hQ : ((List.range (N + 1)).map (fun k => chargeAt cfg j.pops k * cfg.factor.getD 1)).length = N + 1 := by simp
  obtain ⟨F, hF, hE⟩ := (hpot _ hQ).2 j.phi (by
    rw [hphi]
    unfold potential
    rw [ho.bc]
    exact ho.solve _ ((rhs_length _ _ _).trans hQ))
  refine ⟨F, by rw [ho.field]; exact congrArg fld hF, hE.sides, hE.gradient, fun v G val hv hG hval => ?_⟩
  rw [hE.gauss v G hv hG]
  have hget : ∀ k ∈ Finset.range (N + 1), ((List.range (N + 1)).map (fun k => chargeAt cfg j.pops k * cfg.factor.getD 1)).getD k 0 * v k =
      ((chargedParticles cfg j.pops).map (fun q => q.1 * share (cfg.SD.dofs (cfg.A.cell q.2)) (cfg.SD.basis q.2) k * v k)).sum := by
    intro k hk
    rw [List.getD_eq_getElem?_getD, List.getElem?_map, List.getElem?_range (Finset.mem_range.1 hk)]
    show chargeAt cfg j.pops k * cfg.factor.getD 1 * v k = _
    rw [charge_particles, ← List.sum_map_mul_right]
  rw [Finset.sum_congr rfl hget, sum_swap]
  congr 1
  refine List.map_congr_left fun q hq => ?_
  obtain ⟨c, hc', hci, hy⟩ := hval q hq
  rw [← deposit_value hm ho hc' hci hy, Finset.mul_sum]
  exact Finset.sum_congr rfl fun k _ => by ring

/-- C96.  With the sides at zero the energy of the field is the sum of charge times potential over the particles
(twice the usual half on both sides). -/
theorem C96_energy {d : Nat → Nat} {sl C : Nat} (hc : GoodCfg cfg) (hg : GoodMesh cfg onMesh d (N + 1) C) {z : Species.HRow K} (n : Nat)
    (init : Option (List (String × List α))) {st : State K V α σ φ} {i : Ideal K V α σ} {b : List K}
    (hf : Fresh sl (N + 1) C n z st i b) (hnone : st.writer = none → cfg.partEvery = none)
    {eps : K} {lo hi : Int} {dd : List (String × Int × Val K)} (he : 0 < eps) (hm : Meshed D sh N)
    (hl : ∀ i ≤ N, Linked D (fun i => OnSide D marker lo i ∨ OnSide D marker hi i) i)
    (h1 : dd.lookup "rmin" = some (lo, .num 0)) (h2 : dd.lookup "rmax" = some (hi, .num 0))
    (hs : createOn eps D sh N marker dd = .ok s) (ho : OnMeshed cfg D sh N marker s pos fld onMesh)
    {i0 : Ideal K V α σ} {is : List (Ideal K V α σ)}
    (hr : Ideal.run cfg sl (N + 1) onMesh init b n i = .ok (i0, is)) :
    ∀ j ∈ (if init.isSome then [i0] else []) ++ is, ∃ F : DSimplex K → Vec K g,
      cfg.fieldOf j.phi = fld (D.cells.map F) ∧
      ∀ val : α → K, (∀ q ∈ chargedParticles cfg j.pops, ∃ c ∈ D.cells, c.index = cfg.A.cell q.2 ∧
          ValueAt D c (fun k => j.phi.getD k 0) (pos q.2) (val q.2)) →
        pairing eps D sh.vol F F = ((chargedParticles cfg j.pops).map (fun q => q.1 * val q.2)).sum := by
  obtain ⟨st', -, -, key⟩ := C96_gauss hc hg n init hf hnone he hm hl h1 h2 hs ho hr
  intro j hj
  obtain ⟨F, e1, e2, e3, e4⟩ := key j hj
  refine ⟨F, e1, fun val hval => e4 _ F val ?_ e3 hval⟩
  intro k hk
  by_cases h2 : OnSide D marker hi k
  · exact e2.high k h2
  · exact e2.low k (hk.resolve_right h2) h2

end

/-! ### A simulation on two triangles -/

abbrev KitePart := Part ℚ 2 Nat

def kitePart (x y u v : ℚ) (cell : Int) : KitePart := ⟨![x, y], ![x, y], ![u, v], cell, false, false, 0, 7⟩

/-- The mesh of the mover, made from the same triangulation; all outer facets have a mark. -/
def kiteMesh : Mesh ℚ 2 :=
  ((buildMesh (by decide) (kite false) 0 (fun F => if F = 1 then 0 else 1)).toOption).getD ⟨fun _ => none, fun _ => 0⟩

abbrev kiteSolver : Solver ℚ := madeOn 1 (kite false) (kiteShape false) 3 kiteMarks 1 2 0 1

def kiteSolve (b : List ℚ) : List ℚ :=
  [b.getD 0 0, b.getD 1 0, b.getD 2 0, b.getD 3 0 + (b.getD 0 0 + b.getD 2 0) / 2]

def kiteSink : Int → Unit → BCall ℚ 2 2 Nat → Except Err (Unit × KitePart) := fun _ st b => bcAbsorb st b

def kiteCfg : Cfg ℚ ℚ KitePart (Unit × Vec ℚ 2) (List (Vec ℚ 2)) where
  dt := 1 / 2
  move := pyMove (le_refl 2) kiteMesh (fun _ => kiteSink) 10 (1 / 2) (fun _ => -1)
    (fun _ f q => (f[q.cell.toNat]?).map (fun e => -e))
  sources := []
  attrs := [⟨"x", .field (fun q => q.x 0) true⟩, ⟨"species_index", .speciesIndex⟩]
  junk := 0
  partEvery := some 2
  cellEvery := some 3
  fieldEvery := some 1
  quantities := [.count]
  vel := []
  A := ⟨fun q => q.cell.toNat, fun _ => 1 / 4⟩
  SD := meshSpace (kite false) (kiteShape false) (fun q => q.cell.toNat) (fun q => q.x)
  SC := ⟨fun c => [c], fun _ => [1]⟩
  vol := fun _ => 1
  ncell := 2
  bc := applyVecOn (touches (kite false) kiteMarks) kiteSolver.bcs
  solve := kiteSolve
  factor := none
  fieldOf := negEOn (kite false) (kiteShape false)

def kiteState (n : Nat) : State ℚ ℚ KitePart (Unit × Vec ℚ 2) (List (Vec ℚ 2)) where
  count := 0
  time := 0
  sps := [⟨"e", SAP.new 2 (kitePart 0 0 0 0 0), -1, 1, 1, [0, 0, 0, 0], [0, 0]⟩]
  side := ((), ![0, 0])
  field := []
  solver := ⟨[0, 0, 0, 0], [0, 0, 0, 0], [0, 0, 0, 0]⟩
  writer := some (Output.newWriter 2 2 0)
  hist := some ⟨List.replicate (n + 1) ⟨0, 0, []⟩, 0, 1⟩
  phiLog := []
  cellLog := []

def kiteIdeal : Ideal ℚ ℚ KitePart (Unit × Vec ℚ 2) :=
  ⟨0, 0, [⟨"e", -1, 1, 1, ⟨[], false⟩⟩], ((), ![0, 0]), []⟩

/-- Two electrons in the lower triangle, one of them about to leave, and one in the upper. -/
def kiteInit : List (String × List KitePart) :=
  [("e", [kitePart 1 (-1/2) 0 1 1, kitePart 1 (-3/4) 0 (-3) 1, kitePart 1 (1/2) 0 (-1) 0])]

def onKite (q : KitePart) : Bool := decide (q.cell = 0 ∨ q.cell = 1)

def kiteView (r : Except Fault (Ideal ℚ ℚ KitePart (Unit × Vec ℚ 2) × List (Ideal ℚ ℚ KitePart (Unit × Vec ℚ 2)))) :
    Option (List (List (ℚ × ℚ × Int) × List ℚ)) :=
  r.toOption.map (fun r => (r.1 :: r.2).map (fun i => (i.pops.flatMap (fun p => p.st.items.map
    (fun q => (q.x 0, q.x 1, q.cell))), i.phi)))

abbrev kiteRun (n : Nat) := Ideal.run kiteCfg 2 4 onKite (some kiteInit) [0, 0, 0, 0] n kiteIdeal

theorem kite_solves (b : List ℚ) (hb : b.length = 3 + 1) : Solves 3 kiteSolver.A b (kiteSolve b) := by
  obtain ⟨b0, b1, b2, b3, rfl⟩ : ∃ b0 b1 b2 b3, b = [b0, b1, b2, b3] := by
    match b, hb with
    | [b0, b1, b2, b3], _ => exact ⟨b0, b1, b2, b3, rfl⟩
  have a : ∀ i ≤ 3, ∀ j ≤ 3, kiteSolver.A i j =
      (if i = 3 then (if j = 3 then 1 else if j = 1 then 0 else -1 / 2) else if i = j then 1 else 0) := by decide +kernel
  refine ⟨rfl, ?_⟩
  intro i hi
  have hr : Finset.range (3 + 1) = {0, 1, 2, 3} := by decide
  rw [hr, Finset.sum_insert (by decide), Finset.sum_insert (by decide), Finset.sum_insert (by decide), Finset.sum_singleton,
    a i hi 0 (by decide), a i hi 1 (by decide), a i hi 2 (by decide), a i hi 3 (by decide)]
  interval_cases i <;> simp [kiteSolve]
  ring

theorem kite_onMeshed : OnMeshed kiteCfg (kite false) (kiteShape false) 3 kiteMarks kiteSolver (fun q => q.x) id onKite := by
  refine ⟨rfl, rfl, kite_solves, rfl, by decide, fun p hp => ?_⟩
  simp only [onKite, decide_eq_true_eq] at hp
  rcases hp with hp | hp
  · exact ⟨(kiteCells false)[0]'(by simp [kiteCells]), by simp [kite, kiteCells], by simp [kiteCells, kiteCfg, hp]⟩
  · exact ⟨(kiteCells false)[1]'(by simp [kiteCells]), by simp [kite, kiteCells], by simp [kiteCells, kiteCfg, hp]⟩

theorem kite_goodCfg : GoodCfg kiteCfg := by
  refine ⟨⟨?_, by simp [kiteCfg]⟩, by simp [kiteCfg], by simp [kiteCfg], by simp [kiteCfg], by simp [kiteCfg]⟩
  intro a ha
  simp only [kiteCfg, List.mem_cons, List.not_mem_nil, or_false] at ha
  rcases ha with rfl | rfl <;> rfl

theorem kite_goodMesh : GoodMesh kiteCfg onKite (fun k => k) (3 + 1) 2 := by
  refine ⟨?_, ?_, ⟨fun _ _ => rfl, fun _ _ _ _ h => h, fun _ h => h⟩⟩
  · intro q hq
    simp only [onKite, decide_eq_true_eq] at hq
    rcases hq with hq | hq
    all_goals
      refine ⟨?_, ?_, ?_⟩ <;> simp [kiteCfg, meshSpace, kite, kiteCells, hq]
  · intro q hq
    simp only [onKite, decide_eq_true_eq] at hq
    simp only [kiteCfg]
    omega

theorem kite_fresh (n : Nat) : Fresh 2 (3 + 1) 2 n ⟨0, 0, []⟩ (kiteState n) kiteIdeal [0, 0, 0, 0] := by
  refine ⟨rfl, rfl, rfl, rfl, rfl, ?_, ?_, ?_, ?_, rfl, rfl⟩
  · exact .cons ⟨rfl, rfl, rfl, rfl, ⟨SAP.Reachable.new 2 _ (by decide), SAP.new_sim 2 _ (by decide), rfl⟩,
      rfl, rfl⟩ .nil
  · intro p hp
    simp only [kiteIdeal, List.mem_singleton] at hp
    rw [hp]
  · exact Or.inr ⟨_, rfl, newWriter_ready 2 2 (by decide) 0, rfl, by simp [Output.newWriter, kiteIdeal]⟩
  · simp [HistIs, kiteState]

-- One electron leaves in each step.
example : kiteView (kiteRun 2) = some
    [([(1, -1 / 2, 1), (1, -3 / 4, 1), (1, 1 / 2, 0)], [0, 1, 1, 3 / 16]),
     ([(7 / 8, 5 / 64, 0), (7 / 8, 1 / 8, 0)], [0, 1, 1, 1 / 2]), ([(5 / 8, -1 / 8, 1)], [0, 1, 1, 15 / 32])] := by
  decide +kernel

example : ((run kiteCfg (some kiteInit) 2 (kiteState 2)).toOption.map (·.count)) = some 2 := by decide +kernel

example {i0 is} (hr : kiteRun 2 = .ok (i0, is)) :=
  C96_gauss kite_goodCfg kite_goodMesh 2 (some kiteInit) (kite_fresh 2) (by simp [kiteState]) (eps := 1) one_pos
    (kite_meshed false) (kite_linked false) (dd := kiteBCs) rfl rfl (by rfl) kite_onMeshed hr

end Dt
