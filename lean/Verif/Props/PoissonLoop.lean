import Verif.Props.Poisson
import Verif.Props.TimeLoop
import Mathlib.Tactic.IntervalCases

/-!
# The electric field of a simulation (C92)
-/

set_option linter.unusedSectionVars false

namespace Dt
open Spec Poisson TimeLoop
variable {K V α σ φ : Type} [Field K] [LinearOrder K] [IsStrictOrderedRing K]

theorem chargeAt_looked (cfg : Cfg K V α σ φ) (pops : List (Pop K V α)) (j : Nat) :
    chargeAt cfg (pops.map looked) j = chargeAt cfg pops j := by
  unfold chargeAt
  rw [List.map_map]
  rfl

theorem settle_phi {cfg : Cfg K V α σ φ} {onMesh : α → Bool} {D : Nat} {count : Int} {time : K} {pops : List (Pop K V α)}
    {side : σ} {i : Ideal K V α σ} (h : settle cfg D onMesh count time pops side = .ok i) :
    i.phi = potential cfg D i.pops ∧ ∀ p ∈ i.pops, ∀ q ∈ p.st.items, onMesh q = true := by
  unfold settle at h
  split at h
  · rename_i hon
    cases h
    refine ⟨?_, ?_⟩
    · unfold potential
      simp only [chargeAt_looked]
    · intro p hp q hq
      obtain ⟨p', hp', rfl⟩ := List.mem_map.1 hp
      have := List.all_eq_true.1 hon p' hp'
      exact List.all_eq_true.1 this q hq
  · cases h

theorem run_phi {cfg : Cfg K V α σ φ} {sl D : Nat} {onMesh : α → Bool} {n : Nat} {init : Option (List (String × List α))}
    {i : Ideal K V α σ} {b : List K} {i0 : Ideal K V α σ} {is : List (Ideal K V α σ)}
    (hr : Ideal.run cfg sl D onMesh init b n i = .ok (i0, is)) :
    (init = none → i0.phi = cfg.solve b) ∧
    ∀ j ∈ (if init.isSome then [i0] else []) ++ is,
      j.phi = potential cfg D j.pops ∧ ∀ p ∈ j.pops, ∀ q ∈ p.st.items, onMesh q = true := by
  have hs : i.start cfg sl D onMesh init b = .ok i0 ∧ Ideal.steps cfg sl D onMesh n i0 = .ok is := by
    unfold Ideal.run at hr
    split at hr
    · cases hr
    · rename_i h1
      split at hr
      · cases hr
      · rename_i h2
        cases hr
        exact ⟨h1, h2⟩
  refine ⟨?_, ?_⟩
  · rintro rfl
    have := hs.1
    simp only [Ideal.start, Except.ok.injEq] at this
    rw [← this]
  intro j hj
  rw [List.mem_append] at hj
  rcases hj with hj | hj
  · cases init with
    | none => simp at hj
    | some gs =>
      simp at hj
      subst hj
      have := hs.1
      simp only [Ideal.start] at this
      split at this
      · cases this
      · exact settle_phi this
  · have hss := hs.2
    clear hs hr
    induction n generalizing i0 is with
    | zero =>
      simp only [Ideal.steps, Except.ok.injEq] at hss
      subst hss
      simp at hj
    | succ n ih =>
      simp only [Ideal.steps] at hss
      split at hss
      · cases hss
      · rename_i i1 e1
        split at hss
        · cases hss
        · rename_i is1 e2
          cases hss
          rcases List.mem_cons.1 hj with rfl | hj
          · simp only [Ideal.step] at e1
            split at e1
            · cases e1
            · split at e1
              · cases e1
              · exact settle_phi e1
          · exact ih hj e2

/-- The particles of a state as point charges: charge times weight times factor, position, cell. -/
def Spec.pointCharges (cfg : Cfg K V α σ φ) (pos : α → K) (pops : List (Pop K V α)) : List (K × K × Nat) :=
  pops.flatMap (fun p => p.st.items.map (fun q => (p.charge * cfg.A.weight q * cfg.factor.getD 1, pos q, cfg.A.cell q)))

/-- A simulation with the solver `s` on an interval mesh. -/
structure Spec.OnLine (cfg : Cfg K V α σ φ) (x : Nat → K) (N : Nat) (marker : Nat → Int) (s : Solver K) (pos : α → K)
    (fld : List K → φ) (onMesh : α → Bool) : Prop where
  space : cfg.SD = lineSpace x cfg.A.cell pos
  bc : cfg.bc = applyVec marker s.bcs
  solve : ∀ b : List K, b.length = N + 1 → Solves N s.A b (cfg.solve b)
  field : cfg.fieldOf = fun phi => fld (negE x N phi)
  located : ∀ p, onMesh p = true → ∀ q, Located x N (q, pos p, cfg.A.cell p)

section
variable {cfg : Cfg K V α σ φ} {x : Nat → K} {N : Nat} {marker : Nat → Int} {s : Solver K} {pos : α → K} {fld : List K → φ}
  {onMesh : α → Bool}

theorem charge_points (h : OnLine cfg x N marker s pos fld onMesh) (pops : List (Pop K V α)) (j : Nat) :
    chargeAt cfg pops j * cfg.factor.getD 1 =
      ((pointCharges cfg pos pops).map (fun q => q.1 * lam x q.2.2 q.2.1 j)).sum := by
  unfold chargeAt pointCharges
  rw [h.space]
  induction pops with
  | nil => simp
  | cons p ps ih =>
    rw [List.map_cons, List.sum_cons, List.flatMap_cons, List.map_append, List.sum_append, ← ih, add_mul]
    congr 1
    rw [List.map_map]
    generalize p.st.items = xs
    induction xs with
    | nil => simp
    | cons q qs ihq =>
      simp only [List.map_cons, List.sum_cons, Function.comp_apply] at ihq ⊢
      rw [← ihq]
      simp only [contrib, lineSpace, lam]
      ring

theorem points_located (h : OnLine cfg x N marker s pos fld onMesh) {pops : List (Pop K V α)}
    (hon : ∀ p ∈ pops, ∀ q ∈ p.st.items, onMesh q = true) : ∀ q ∈ pointCharges cfg pos pops, Located x N q := by
  intro q hq
  obtain ⟨p, hp, hq⟩ := List.mem_flatMap.1 hq
  obtain ⟨r, hr, rfl⟩ := List.mem_map.1 hq
  exact h.located r (hon p hp r hr) _

theorem sum_swap {ι : Type} (l : List ι) (S : Finset Nat) (f : ι → Nat → K) :
    ∑ i ∈ S, (l.map (fun q => f q i)).sum = (l.map (fun q => ∑ i ∈ S, f q i)).sum := by
  induction l with
  | nil => simp
  | cons q l ih => simp only [List.map_cons, List.sum_cons, Finset.sum_add_distrib, ih]

/-- C92.  In every simulation on an interval mesh, Cartesian or radial: in every state after a step (and in the first, if there are initial
particles), the potential has the given values at the ends and the electric field obeys Gauss's law for the particles
present.  Between two cells without particles the flux grows by the charge of the particles between (times
`spacecharge_factor`); if the centre is open, the flux through a cell without particles is the charge inside. -/
theorem C92_gauss {d : Nat → Nat} {sl C : Nat} (hc : GoodCfg cfg) (hm : GoodMesh cfg onMesh d (N + 1) C) {z : Species.HRow K} (n : Nat)
    (init : Option (List (String × List α))) {st : State K V α σ φ} {i : Ideal K V α σ} {b : List K}
    (hf : Fresh sl (N + 1) C n z st i b) (hnone : st.writer = none → cfg.partEvery = none)
    {eps : K} {co : Coord} {lo hi : Int} {v0 : Val K} {vN : K} {dd : List (String × Int × Val K)}
    (he : 0 < eps) (hg : Grid co x N) (hmk : Marks marker N lo hi) (hd : Given co dd lo hi v0 vN)
    (hs : create eps co x N marker dd = .ok s) (hl : OnLine cfg x N marker s pos fld onMesh)
    {i0 : Ideal K V α σ} {is : List (Ideal K V α σ)}
    (hr : Ideal.run cfg sl (N + 1) onMesh init b n i = .ok (i0, is)) :
    ∃ st', run cfg init n st = .ok st' ∧ Outcome cfg d C init.isSome b st st' i0 is ∧
      ∀ j ∈ (if init.isSome then [i0] else []) ++ is,
        cfg.fieldOf j.phi = fld (negE x N j.phi) ∧
        Electrostatic eps co x N v0 vN (fun i => ((pointCharges cfg pos j.pops).map (fun q => q.1 * lam x q.2.2 q.2.1 i)).sum)
          j.phi (negE x N j.phi) ∧
        (∀ a b, a < b → b < N → (∀ q ∈ pointCharges cfg pos j.pops, q.2.2 ≠ a ∧ q.2.2 ≠ b) →
          flux eps co x (eField (negE x N j.phi)) b - flux eps co x (eField (negE x N j.phi)) a =
            (((pointCharges cfg pos j.pops).filter (fun q => decide (a < q.2.2 ∧ q.2.2 < b))).map (·.1)).sum) ∧
        (v0 = .unset → ∀ b < N, (∀ q ∈ pointCharges cfg pos j.pops, q.2.2 ≠ b) →
          flux eps co x (eField (negE x N j.phi)) b =
            (((pointCharges cfg pos j.pops).filter (fun q => decide (q.2.2 < b))).map (·.1)).sum) := by
  have key1 := C68_run hc hm n init hf hnone
  rw [hr] at key1
  obtain ⟨hlen, st', e, ho⟩ := key1
  refine ⟨st', e, ho, fun j hj => ?_⟩
  obtain ⟨hphi, hon⟩ := (run_phi hr).2 j hj
  obtain ⟨s', hs', hpot⟩ := C89_potential he hg hmk hd
  rw [hs] at hs'
  cases hs'
  have hQ : ((List.range (N + 1)).map (fun k => chargeAt cfg j.pops k * cfg.factor.getD 1)).length = N + 1 := by simp
  have hE := (hpot _ hQ).2 j.phi (by
    rw [hphi]
    unfold potential
    rw [hl.bc]
    exact hl.solve _ ((applyVec_length _ _).trans hQ))
  have hget : ∀ k ≤ N, ((List.range (N + 1)).map (fun k => chargeAt cfg j.pops k * cfg.factor.getD 1)).getD k 0 =
      ((pointCharges cfg pos j.pops).map (fun q => q.1 * lam x q.2.2 q.2.1 k)).sum := by
    intro k hk
    rw [List.getD_eq_getElem?_getD, List.getElem?_map, List.getElem?_range (by omega)]
    exact charge_points hl j.pops k
  have hE' : Electrostatic eps co x N v0 vN (fun i => ((pointCharges cfg pos j.pops).map (fun q => q.1 * lam x q.2.2 q.2.1 i)).sum)
      j.phi (negE x N j.phi) := by
    refine ⟨hE.high, hE.low, hE.gradient, fun a b hab hb => (hE.gauss a b hab hb).trans ?_, fun hu c hc => (hE.enclosed hu c hc).trans ?_⟩
    · exact Finset.sum_congr rfl fun k hk => hget k (by have := (Finset.mem_Ioc.1 hk).2; omega)
    · exact Finset.sum_congr rfl fun k hk => hget k (by have := Finset.mem_range.1 hk; omega)
  have hloc := points_located hl hon
  refine ⟨by rw [hl.field], hE', fun a b hab hb hq => ?_, fun hu b hb hq => ?_⟩
  · rw [hE'.gauss a b hab.le hb, sum_swap]
    revert hq hloc
    generalize pointCharges cfg pos j.pops = qs
    intro hloc hq
    induction qs with
    | nil => simp
    | cons q qs ih =>
      have ih := ih (fun q' h' => hloc q' (List.mem_cons_of_mem _ h')) (fun q' h' => hq q' (List.mem_cons_of_mem _ h'))
      have h1 := hq q (by simp)
      rw [List.map_cons, List.sum_cons, ih, ← Finset.mul_sum, lam_between (hg.lt _ (hloc q (by simp)).cell) _ h1.1 h1.2, List.filter_cons]
      by_cases h2 : a < q.2.2 ∧ q.2.2 < b
      · simp [h2]
      · simp only [h2, if_false, mul_zero, zero_add, decide_false, Bool.false_eq_true]
  · rw [hE'.enclosed hu b hb, sum_swap]
    revert hq hloc
    generalize pointCharges cfg pos j.pops = qs
    intro hloc hq
    induction qs with
    | nil => simp
    | cons q qs ih =>
      have ih := ih (fun q' h' => hloc q' (List.mem_cons_of_mem _ h')) (fun q' h' => hq q' (List.mem_cons_of_mem _ h'))
      have h1 := hq q (by simp)
      rw [List.map_cons, List.sum_cons, ih, ← Finset.mul_sum, lam_below (hg.lt _ (hloc q (by simp)).cell) _ h1, List.filter_cons]
      by_cases h2 : q.2.2 < b
      · simp [h2]
      · simp only [h2, if_false, mul_zero, zero_add, decide_false, Bool.false_eq_true]

/-- C92 (Cartesian).  In every such state the potential at the vertices is the exact potential of the particles
present, as point charges between the plates. -/
theorem C92_exact {d : Nat → Nat} {sl C : Nat} (hc : GoodCfg cfg) (hm : GoodMesh cfg onMesh d (N + 1) C) {z : Species.HRow K} (n : Nat)
    (init : Option (List (String × List α))) {st : State K V α σ φ} {i : Ideal K V α σ} {b : List K}
    (hf : Fresh sl (N + 1) C n z st i b) (hnone : st.writer = none → cfg.partEvery = none)
    {eps : K} {lo hi : Int} {va vb : K} {dd : List (String × Int × Val K)}
    (he : 0 < eps) (hg : Grid .cartesian x N) (hmk : Marks marker N lo hi) (hd : Given .cartesian dd lo hi (.num va) vb)
    (hs : create eps .cartesian x N marker dd = .ok s) (hl : OnLine cfg x N marker s pos fld onMesh)
    {i0 : Ideal K V α σ} {is : List (Ideal K V α σ)}
    (hr : Ideal.run cfg sl (N + 1) onMesh init b n i = .ok (i0, is)) :
    ∃ st', run cfg init n st = .ok st' ∧ Outcome cfg d C init.isSome b st st' i0 is ∧
      ∀ j ∈ (if init.isSome then [i0] else []) ++ is, ∀ k ≤ N, j.phi[k]? =
        some (plates eps (x 0) (x N) va vb ((pointCharges cfg pos j.pops).map (fun q => (q.1, q.2.1))) (x k)) := by
  have key1 := C68_run hc hm n init hf hnone
  rw [hr] at key1
  obtain ⟨hlen, st', e, ho⟩ := key1
  refine ⟨st', e, ho, fun j hj k hk => ?_⟩
  obtain ⟨hphi, hon⟩ := (run_phi hr).2 j hj
  have hQ : ((List.range (N + 1)).map (fun k => chargeAt cfg j.pops k * cfg.factor.getD 1)).length = N + 1 := by simp
  obtain ⟨s', hs', hpot⟩ := C90_plates he hg hmk hd (pointCharges cfg pos j.pops) (points_located hl hon) hQ (by
    intro k h0 h1
    rw [List.getD_eq_getElem?_getD, List.getElem?_map, List.getElem?_range (by omega)]
    exact charge_points hl j.pops k)
  rw [hs] at hs'
  cases hs'
  refine hpot j.phi ?_ k hk
  rw [hphi]
  unfold potential
  rw [hl.bc]
  exact hl.solve _ ((applyVec_length _ _).trans hQ)

end

/-! ### A concrete simulation -/

section Demo
open Fld (Dep demoAttrs demoDG)

def natX (i : Nat) : ℚ := i

/-- The solution of the equations with two cells of length 1. -/
def natSolve (b : List ℚ) : List ℚ := [b.getD 0 0, (b.getD 0 0 + b.getD 1 0 + b.getD 2 0) / 2, b.getD 2 0]

abbrev natSolver : Solver ℚ := made 1 .cartesian natX 2 demoMarks 1 2 (.num 0) 3

/-- The simulation of `TimeLoop` with the solver. -/
def natCfg : Cfg ℚ ℚ Dep Nat ℚ :=
  { loopCfg [loopSource] with
    SD := lineSpace natX demoAttrs.cell (fun p : Dep => p.2.1)
    bc := applyVec demoMarks natSolver.bcs
    solve := natSolve
    fieldOf := fun phi => (negE natX 2 phi).headD 0 }

def onNat (p : Dep) : Bool := decide (p.1 < 2 ∧ (p.1 : ℚ) ≤ p.2.1 ∧ p.2.1 ≤ (p.1 : ℚ) + 1)

theorem nat_solves (b : List ℚ) : Solves 2 natSolver.A b (natSolve b) := by
  refine ⟨rfl, fun i hi => ?_⟩
  have hA : ∀ i j, i ≤ 2 → j ≤ 2 → natSolver.A i j = if i = 1 then (if j = 1 then 2 else -1) else if i = j then 1 else 0 := by
    intro i j hi hj
    interval_cases i <;> interval_cases j <;> decide +kernel
  simp only [Finset.sum_range_succ, Finset.sum_range_zero, hA i _ hi (by omega : 0 ≤ 2), hA i _ hi (by omega : 1 ≤ 2), hA i _ hi (by omega : 2 ≤ 2)]
  interval_cases i <;> simp [natSolve] <;> ring

theorem nat_line : OnLine natCfg natX 2 demoMarks natSolver (fun p : Dep => p.2.1) (fun l => l.headD 0) onNat :=
  ⟨rfl, rfl, fun b _ => nat_solves b, rfl, fun p hp q => by
    have := of_decide_eq_true hp
    exact ⟨this.1, this.2.1, by have h := this.2.2; show p.2.1 ≤ ((p.1 + 1 : ℕ) : ℚ); push_cast; exact h⟩⟩

theorem nat_grid : Grid .cartesian natX 2 := ⟨by decide, fun c _ => by simp [natX], by rintro ⟨⟩⟩

theorem nat_good : GoodCfg natCfg :=
  ⟨demoOut_good, by simp [natCfg, loopCfg], by simp [natCfg, loopCfg], by simp [natCfg, loopCfg], by simp [natCfg, loopCfg]⟩

theorem nat_mesh : GoodMesh natCfg onNat (fun k => 1 - k) 3 2 := by
  refine ⟨?_, fun p hp => (of_decide_eq_true hp).1, Fld.demo_cell⟩
  rintro ⟨c, x, w⟩ hp
  have hc : c < 2 := (of_decide_eq_true hp).1
  refine ⟨?_, ?_, rfl⟩
  · intro i hi
    simp only [natCfg, loopCfg, lineSpace, demoAttrs, List.mem_cons, List.not_mem_nil, or_false] at hi
    omega
  · simp [natCfg, lineSpace]

abbrev natRun (n : Nat) : Except Fault (Ideal ℚ ℚ Dep Nat × List (Ideal ℚ ℚ Dep Nat)) :=
  Ideal.run natCfg 2 3 onNat (some (loopInit false)) [0, 0, 0] n (loopIdeal loopSps)

theorem natRun_ok : ∃ i0 is, natRun 3 = .ok (i0, is) := by
  have h : (natRun 3).toOption.isSome = true := by decide +kernel
  cases e : natRun 3 with
  | error f => rw [e] at h; cases h
  | ok r => exact ⟨r.1, r.2, rfl⟩

/-- The hypotheses of C92 hold for this simulation. -/
example : ∃ i0 is st', natRun 3 = .ok (i0, is) ∧ run natCfg (some (loopInit false)) 3 (loopState 3 loopSps) = .ok st' ∧
    ∀ j ∈ i0 :: is, ∀ k ≤ 2, j.phi[k]? = some (plates 1 0 2 0 3 ((pointCharges natCfg (fun p : Dep => p.2.1) j.pops).map
      (fun q => (q.1, q.2.1))) (natX k)) := by
  obtain ⟨i0, is, e⟩ := natRun_ok
  obtain ⟨st', e2, _, h⟩ := C92_exact nat_good nat_mesh 3 (some (loopInit false)) (loop_fresh 3 [("e", -1, 1, 1), ("H", 0, 4, 2)])
    (by simp [loopState]) one_pos nat_grid demo_marks demo_plates (create_eq demo_plates) nat_line (i0 := i0) (is := is) e
  exact ⟨i0, is, st', e, e2, h⟩
example := fun i0 is => C92_gauss nat_good nat_mesh 3 (some (loopInit false)) (loop_fresh 3 [("e", -1, 1, 1), ("H", 0, 4, 2)])
    (by simp [loopState]) one_pos nat_grid demo_marks demo_plates (create_eq demo_plates) nat_line (i0 := i0) (is := is)

end Demo

end Dt
