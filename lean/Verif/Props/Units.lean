import Verif.Spec.Units
import Verif.Props.Reverse

/-!
# The units and the origin do not matter in one-dimensional simulations (C117)
-/

set_option linter.unusedSectionVars false

namespace Dt
open Spec Poisson TimeLoop
variable {K V : Type} [Field K] [LinearOrder K] [IsStrictOrderedRing K] {ρ : Type}

section
variable {x : Nat → K} {N : Nat} {eps : K} {co : Coord} {v0 : Val K} {vN : K} {c : UnitChange K}

theorem units_charges {weight weight' : Part K 1 ρ → K} (hwt : ∀ q q', q.rest = q'.rest → weight' q' = weight q) (factor : K)
    {l l' : List (Pop K V (Part K 1 ρ))} (h : Converted c l l') :
    chargesOf weight' factor l' = (chargesOf weight factor l).map (fun q => (c.charge * q.1, c.pos q.2)) := by
  unfold Converted at h
  unfold chargesOf
  induction h with
  | nil => rfl
  | @cons s s' l l' hs _ ih =>
    obtain ⟨-, e2, e5⟩ := hs
    rw [List.flatMap_cons, List.flatMap_cons, ih, e2, List.map_append]
    congr 1
    generalize s.st.items = xs at e5
    generalize s'.st.items = ys at e5
    induction xs generalizing ys with
    | nil =>
      have : ys = [] := by simpa using e5
      rw [this]
      rfl
    | cons q xs ih =>
      cases ys with
      | nil => simp at e5
      | cons q' ys =>
        simp only [List.map_cons, List.cons.injEq] at e5 ⊢
        refine ⟨?_, ih _ (by simpa using e5.2)⟩
        have h1 : q'.x 0 = c.pos (q.x 0) := congrArg (fun k => k.1 0) e5.1
        have h2 : q'.rest = q.rest := congrArg (fun k => k.2.2) e5.1
        rw [hwt q q' h2.symm, h1]
        simp only [Prod.mk.injEq, and_true]
        ring

theorem pos_le (hc : c.Valid co) {y z : K} : c.pos y ≤ c.pos z ↔ y ≤ z := by
  unfold UnitChange.pos
  rw [add_le_add_iff_right, mul_le_mul_iff_right₀ hc.len]

theorem pos_lt (hc : c.Valid co) {y z : K} : c.pos y < c.pos z ↔ y < z := by
  rw [← not_le, ← not_le, pos_le hc]

theorem units_grid (hc : c.Valid co) (hg : Grid co x N) : Grid co (fun n => c.pos (x n)) N := by
  refine ⟨hg.pos, fun n hn => (pos_lt hc).2 (hg.lt n hn), fun h => ?_⟩
  have := hg.nonneg h
  show 0 ≤ c.len * x 0 + c.origin
  rw [hc.centre h, add_zero]
  exact mul_nonneg hc.len.le this

theorem units_below (hc : c.Valid co) (a b y : K) : below (c.pos a) (c.pos b) (c.pos y) = below a b y := by
  unfold below
  simp only [pos_le hc]
  split
  · rfl
  · split
    · rfl
    · unfold UnitChange.pos
      rw [show c.len * b + c.origin - (c.len * y + c.origin) = c.len * (b - y) by ring,
        show c.len * b + c.origin - (c.len * a + c.origin) = c.len * (b - a) by ring, mul_div_mul_left _ _ hc.len.ne']

/-- C117.  The field of the same charges in other units is the same field in other units: force per charge. -/
theorem C117_field (hc : c.Valid co) {charges : List (K × K)} {F : Nat → K}
    (h : IsField eps co x N v0 vN charges F) :
    IsField (c.perm co eps) co (fun n => c.pos (x n)) N (c.val v0) (c.volt vN) (charges.map (fun q => (c.charge * q.1, c.pos q.2)))
      (fun n => c.mass * c.len / (c.time ^ 2 * c.charge) * F n) := by
  obtain ⟨A, h1, h2, h3⟩ := h
  have p1 := hc.len.ne'
  have p2 := hc.time.ne'
  have p3 := hc.mass.ne'
  have p4 := hc.charge.ne'
  refine ⟨c.charge * A, fun n hn => ?_, fun h => ?_, fun v hv => ?_⟩
  · have e : ((charges.map (fun q => (c.charge * q.1, c.pos q.2))).map (fun q => q.1 * below (c.pos (x n)) (c.pos (x (n + 1))) q.2)).sum =
        c.charge * (charges.map (fun q => q.1 * below (x n) (x (n + 1)) q.2)).sum := by
      rw [List.map_map, ← List.sum_map_mul_left]
      congr 1
      refine List.map_congr_left fun q _ => ?_
      simp only [Function.comp, units_below hc]
      ring
    rw [e, ← mul_add, ← h1 n hn]
    unfold flux
    cases co with
    | cartesian =>
      simp only [area, UnitChange.perm]
      field_simp
    | spherical =>
      simp only [area, UnitChange.perm, UnitChange.pos, hc.centre rfl, add_zero]
      field_simp
  · have : v0 = .unset := by
      cases v0 with
      | num v => cases h
      | unset => rfl
    rw [h2 this, mul_zero]
  · cases v0 with
    | unset => cases hv
    | num w =>
      have hv : c.volt w = v := by simpa [UnitChange.val] using hv
      rw [← hv]
      have := h3 w rfl
      unfold UnitChange.volt UnitChange.pos
      rw [← mul_sub, ← this, Finset.mul_sum]
      refine Finset.sum_congr rfl fun n _ => ?_
      field_simp
      ring

/-- A step of a particle in other units. -/
theorem units_leap (hc : c.Valid co) {a dt qom : K} {L : Bool} {F F' : K → K} {k : Vec K 1 × Vec K 1 × ρ}
    (hF : F' (c.pos (k.1 0)) = c.mass * c.len / (c.time ^ 2 * c.charge) * F (k.1 0)) :
    walledLeap (c.pos a) L (c.time * dt) (c.ratio qom) F' (c.state k) = c.state (walledLeap a L dt qom F k) := by
  have p1 := hc.len.ne'
  have p2 := hc.time.ne'
  have p3 := hc.mass.ne'
  have p4 := hc.charge.ne'
  have e1 : ∀ A B : Vec K 1, A 0 = B 0 → A = B := fun A B h => by
    funext t
    rwa [Subsingleton.elim t 0]
  have e : leap (c.time * dt) (c.ratio qom) (some (fun _ => F' ((c.state k).1 0))) (c.state k) =
      c.state (leap dt qom (some (fun _ => F (k.1 0))) k) := by
    obtain ⟨X, U, r⟩ := k
    unfold leap UnitChange.state UnitChange.ratio
    dsimp only [Option.getD] at *
    rw [hF]
    simp only [Prod.mk.injEq, and_true]
    refine ⟨e1 _ _ ?_, e1 _ _ ?_⟩
    · simp only [Pi.add_apply, Pi.smul_apply, smul_eq_mul, UnitChange.pos]
      field_simp
      ring
    · simp only [Pi.add_apply, Pi.smul_apply, smul_eq_mul]
      field_simp
  unfold walledLeap
  dsimp only
  rw [e]
  generalize leap dt qom (some (fun _ => F (k.1 0))) k = w
  cases L with
  | false => rfl
  | true =>
    simp only [if_true]
    unfold folded
    have : (c.state w).1 0 < c.pos a ↔ w.1 0 < a := pos_lt hc
    simp only [this]
    split
    · unfold mirrored UnitChange.state
      simp only [Prod.mk.injEq, and_true]
      refine ⟨e1 _ _ ?_, e1 _ _ ?_⟩
      · simp only [UnitChange.pos]
        ring
      · simp
    · rfl

/-- C117.  One step. -/
theorem C117_step (hc : c.Valid co) (he : 0 < eps) (hg : Grid co x N) {L : String → Bool} {qom : String → K} {locate locate' : K → Nat} {σ φ : Type}
    {cfg cfg' : Cfg K V (Part K 1 ρ) σ φ} {sl sl' : Nat} {i i' j j' : Ideal K V (Part K 1 ρ) σ}
    (hdt : cfg'.dt = c.time * cfg.dt) (hfac : cfg'.factor = cfg.factor)
    (hwt : ∀ q q', q.rest = q'.rest → cfg'.A.weight q' = cfg.A.weight q) (hloc : ∀ y, locate' (c.pos y) = locate y)
    (h : FieldStep eps co x N v0 vN L qom locate cfg sl i j)
    (h' : FieldStep (c.perm co eps) co (fun n => c.pos (x n)) N (c.val v0) (c.volt vN) L (fun s => c.ratio (qom s)) locate' cfg' sl' i' j')
    (hi : Placed x N locate i) (hs : Converted c i.pops i'.pops)
    (hm : ∀ name, (i'.made cfg' sl' name).map kin = ((i.made cfg sl name).map kin).map c.state) :
    Converted c j.pops j'.pops := by
  have he' : 0 < c.perm co eps := by
    have := hc.len
    have := hc.time
    have := hc.mass
    have := hc.charge
    cases co <;> unfold UnitChange.perm <;> positivity
  obtain ⟨-, -, F, hF, hp⟩ := h
  obtain ⟨-, -, F', hF', hp'⟩ := h'
  rw [units_charges hwt _ hs, hfac] at hF'
  have hFF := C93_field_unique he' (units_grid hc hg) hF' (C117_field hc hF)
  have hloc : ∀ s ∈ i.pops, ∀ k ∈ s.st.items.map kin,
      F' (locate' (c.pos (k.1 0))) = c.mass * c.len / (c.time ^ 2 * c.charge) * F (locate (k.1 0)) := by
    intro s hs k hk
    obtain ⟨q, hq, rfl⟩ := List.mem_map.1 hk
    rw [hloc]
    exact hFF _ (hi s hs q hq).1
  clear hF hF' hFF hi
  rw [hdt] at hp'
  unfold Converted at hs ⊢
  generalize i.pops = l at hp hs hloc
  generalize i'.pops = l' at hp' hs
  generalize j.pops = m at hp
  generalize j'.pops = m' at hp'
  induction hs generalizing m m' with
  | nil => cases hp; cases hp'; exact .nil
  | @cons s s' l l' hss _ ih =>
    cases hp with
    | cons a1 a2 =>
    cases hp' with
    | cons b1 b2 =>
    refine .cons ?_ (ih (fun t ht => hloc t (by simp [ht])) _ a2 _ b2)
    obtain ⟨e1, e2, e5⟩ := hss
    obtain ⟨c1, c2, -, -, c5⟩ := a1
    obtain ⟨d1, d2, -, -, d5⟩ := b1
    refine ⟨by rw [d1, c1, e1], by rw [d2, c2, e2], ?_⟩
    rw [c5, d5, e1, e2, List.map_append, hm]
    congr 1
    simp only [mul_eq_zero, hc.charge.ne', false_or]
    split
    · exact e5
    · have hmap : ((s.st.items.map kin).map c.state).map (walledLeap (c.pos (x 0)) (L s.name) (c.time * cfg.dt) (c.ratio (qom s.name)) (fun y => F' (locate' y))) =
          ((s.st.items.map kin).map (walledLeap (x 0) (L s.name) cfg.dt (qom s.name) (fun y => F (locate y)))).map c.state := by
        simp only [List.map_map]
        refine List.map_congr_left fun q hq => ?_
        exact units_leap (F := fun y => F (locate y)) (F' := fun y => F' (locate' y)) hc (hloc s (by simp) (kin q) (List.mem_map_of_mem hq))
      rw [e5, hmap, List.filter_map]
      congr 1
      refine List.filter_congr fun k _ => ?_
      have h1 : c.pos (x 0) ≤ (c.state k).1 0 ↔ x 0 ≤ k.1 0 := pos_le hc
      have h2 : (c.state k).1 0 ≤ c.pos (x N) ↔ k.1 0 ≤ x N := pos_le hc
      simp only [Function.comp, h1, h2]

/-- C117.  Two simulations whose meshes, potentials, permittivity, charges, masses, time steps, initial particles and
sources are the same in different units, counted from different origins, go through the same states. -/
theorem C117_run (hc : c.Valid co) (he : 0 < eps) (hg : Grid co x N) {L : String → Bool} {qom : String → K} {locate locate' : K → Nat} {σ φ : Type}
    {cfg cfg' : Cfg K V (Part K 1 ρ) σ φ} {sl sl' : Nat}
    (hdt : cfg'.dt = c.time * cfg.dt) (hfac : cfg'.factor = cfg.factor)
    (hwt : ∀ q q', q.rest = q'.rest → cfg'.A.weight q' = cfg.A.weight q) (hloc : ∀ y, locate' (c.pos y) = locate y)
    {D D' : Nat} {onMesh onMesh' : Part K 1 ρ → Bool} {init init' : Option (List (String × List (Part K 1 ρ)))} {b b' : List K} {n : Nat}
    {i i' : Ideal K V (Part K 1 ρ) σ} {i0 i0' : Ideal K V (Part K 1 ρ) σ} {is is' : List (Ideal K V (Part K 1 ρ) σ)}
    (hr : Ideal.run cfg sl D onMesh init b n i = .ok (i0, is)) (hr' : Ideal.run cfg' sl' D' onMesh' init' b' n i' = .ok (i0', is'))
    (hf : (i0 :: is).IsChain (FieldStep eps co x N v0 vN L qom locate cfg sl))
    (hf' : (i0' :: is').IsChain (FieldStep (c.perm co eps) co (fun n => c.pos (x n)) N (c.val v0) (c.volt vN) L (fun s => c.ratio (qom s)) locate' cfg' sl'))
    (hpl : ∀ j ∈ i0 :: is, Placed x N locate j)
    (hn : (i.pops.map (·.name)).Nodup) (hn' : (i'.pops.map (·.name)).Nodup) (hcount : i'.count = i.count) (ht : i'.time = c.time * i.time)
    (hp : Converted c i.pops i'.pops)
    (hg0 : ∀ name, (given init' name).map kin = ((given init name).map kin).map c.state)
    (hcr : ∀ name count time side side',
      (created name count (c.time * time) cfg'.sources side').map kin = ((created name count time cfg.sources side).map kin).map c.state) :
    List.Forall₂ (fun j j' => j'.count = j.count ∧ j'.time = c.time * j.time ∧ Converted c j.pops j'.pops) (i0 :: is) (i0' :: is') := by
  have split : ∀ {c : Cfg K V (Part K 1 ρ) σ φ} {sl D : Nat} {on : Part K 1 ρ → Bool} {init : Option (List (String × List (Part K 1 ρ)))}
      {b : List K} {i i0 : Ideal K V (Part K 1 ρ) σ} {is : List (Ideal K V (Part K 1 ρ) σ)},
      Ideal.run c sl D on init b n i = .ok (i0, is) → i.start c sl D on init b = .ok i0 ∧ Ideal.steps c sl D on n i0 = .ok is := by
    intro c sl D on init b i i0 is hr
    unfold Ideal.run at hr
    split at hr
    · cases hr
    · rename_i h1
      split at hr
      · cases hr
      · rename_i h2
        cases hr
        exact ⟨h1, h2⟩
  obtain ⟨s1, s2⟩ := split hr
  obtain ⟨s1', s2'⟩ := split hr'
  obtain ⟨a1, a2, a3⟩ := start_all hn s1
  obtain ⟨a1', a2', a3'⟩ := start_all hn' s1'
  have h0 : Converted c i0.pops i0'.pops := by
    clear split hr hr' hf hf' hpl s1 s1' s2 s2' a1 a2 a1' a2' hn hn' hcr
    unfold Converted at hp ⊢
    generalize i.pops = l at hp a3
    generalize i'.pops = l' at hp a3'
    generalize i0.pops = m at a3
    generalize i0'.pops = m' at a3'
    induction hp generalizing m m' with
    | nil => cases a3; cases a3'; exact .nil
    | @cons s s' l l' hss _ ih =>
      cases a3 with
      | cons b1 b2 =>
      cases a3' with
      | cons c1 c2 =>
      refine .cons ?_ (ih _ b2 _ c2)
      obtain ⟨e1, e2, e5⟩ := hss
      obtain ⟨f1, f2, -, -, f5⟩ := b1
      obtain ⟨g1, g2, -, -, g5⟩ := c1
      refine ⟨by rw [g1, f1, e1], by rw [g2, f2, e2], ?_⟩
      rw [f5, g5, e1, List.map_append, List.map_append, List.map_append, e5, hg0]
  have hc0 : i0'.count = i0.count := by rw [a1, a1', hcount]
  have ht0 : i0'.time = c.time * i0.time := by rw [a2, a2', ht]
  obtain ⟨l1, ch⟩ := steps_ok_chain n s2
  obtain ⟨l2, ch'⟩ := steps_ok_chain n s2'
  clear split hr hr' s1 s1' s2 s2' a1 a2 a3 a1' a2' a3' hn hn' hp hg0 hcount ht
  induction n generalizing i0 i0' is is' with
  | zero =>
    rw [List.length_eq_zero_iff.1 l1, List.length_eq_zero_iff.1 l2]
    exact .cons ⟨hc0, ht0, h0⟩ .nil
  | succ n ih =>
    obtain ⟨j, js, rfl⟩ := List.exists_cons_of_length_eq_add_one l1
    obtain ⟨j', js', rfl⟩ := List.exists_cons_of_length_eq_add_one l2
    rw [List.isChain_cons_cons] at hf hf' ch ch'
    refine .cons ⟨hc0, ht0, h0⟩ (ih hf.2 hf'.2 (fun k hk => hpl k (by simp [List.mem_cons.1 hk])) ?_ ?_ ?_ (by simpa using l1) ch.2 (by simpa using l2) ch'.2)
    · refine C117_step hc he hg hdt hfac hwt hloc hf.1 hf'.1 (hpl _ (by simp)) h0 fun name => ?_
      obtain ⟨sd, e⟩ := made_created ch.1
      obtain ⟨sd', e'⟩ := made_created ch'.1
      rw [e, e', hc0, ht0, hdt, ← mul_add]
      exact hcr _ _ _ _ _
    · rw [hf.1.1, hf'.1.1, hc0]
    · rw [hf.1.2.1, hf'.1.2.1, ht0, hdt, mul_add]

end

/-! ### The electrons of C116 in other units -/

section Demo

/-- Half of the old unit of length, half of that of time, and another origin. -/
def halves : UnitChange ℚ := ⟨2, 2, 1, 1, 1⟩

theorem halves_valid : halves.Valid .cartesian := ⟨by decide +kernel, by decide +kernel, by decide +kernel, by decide +kernel, by rintro ⟨⟩⟩

def wideX (i : Nat) : ℚ := halves.pos (sheetX i)

def wideLocate (y : ℚ) : Nat := sheetLocate ((y - 1) / 2)

abbrev wideSolver : Solver ℚ := made 2 .cartesian wideX 3 sheetMarks 1 2 (.num 0) 0

def wideCfg : Cfg ℚ ℚ SimPart (Unit × Vec ℚ 1) (List ℚ) :=
  { simCfg [] with
    dt := 1
    move := pyMove (le_refl 1) (lineMesh wideX 3 (fun F => if F = 0 then 1 else if F = 3 then 2 else 0)) (fun _ => wallBC) 6 1
      (fun _ => -1) (fun _ f q => some (fun _ => -(f.getD (wideLocate (q.x 0)) 0)))
    A := ⟨fun q => q.cell.toNat, fun _ => 1⟩
    SD := lineSpace wideX (fun q => q.cell.toNat) (fun q => q.x 0)
    bc := applyVec sheetMarks wideSolver.bcs
    solve := sheetSolve
    fieldOf := negE wideX 3 }

abbrev wideRun (xs : List SimPart) (n : Nat) :
    Except Fault (Ideal ℚ ℚ SimPart (Unit × Vec ℚ 1) × List (Ideal ℚ ℚ SimPart (Unit × Vec ℚ 1))) :=
  Ideal.run wideCfg 2 4 (inLine wideX 3) (some [("e", xs)]) [0, 0, 0, 0] n simIdeal

def coupleWide : List SimPart := [demoPart 2 (-3 / 2) 0 false, demoPart (11 / 2) (1 / 4) 2 false]

theorem wide_solves (b : List ℚ) (hb : b.length = 3 + 1) : Solves 3 wideSolver.A b (sheetSolve b) := by
  have e : ∀ i ≤ 3, ∀ j ≤ 3, wideSolver.A i j = sheetSolver.A i j := by decide +kernel
  obtain ⟨h1, h2⟩ := sheet_solves b hb
  refine ⟨h1, fun i hi => ?_⟩
  rw [← h2 i hi]
  refine Finset.sum_congr rfl fun j hj => ?_
  rw [e i hi j (by have := Finset.mem_range.1 hj; omega)]

theorem wide_chain (n : Nat) {i0 : Ideal ℚ ℚ SimPart (Unit × Vec ℚ 1)} {is : List (Ideal ℚ ℚ SimPart (Unit × Vec ℚ 1))}
    (hr : wideRun coupleWide n = .ok (i0, is)) :
    (i0 :: is).IsChain (FieldStep 2 .cartesian wideX 3 (.num 0) 0 (fun _ => true) (fun _ => -1) wideLocate wideCfg 2) := by
  obtain ⟨-, h2, -⟩ := C111_run (L := fun _ => true) (va := 0) (vb := 0) (eps := 2) (cfg := wideCfg) (x := wideX) (N := 3)
    (lineMesh_conforming (fun i hi => (units_grid halves_valid sheet_grid).lt i hi) (by decide) (by decide))
    (fun _ => wallBC_wall) (fun _ => wallBC_keepsCell)
    (by
      intro y h0 h3
      obtain ⟨a, b, c⟩ := sheet_locates ((y - 1) / 2) (by simp [sheetX, wideX, halves, UnitChange.pos] at h0 ⊢; linarith)
        (by simp [sheetX, wideX, halves, UnitChange.pos] at h3 ⊢; linarith)
      refine ⟨a, ?_, ?_⟩
      · unfold wideX wideLocate halves UnitChange.pos
        dsimp only
        linarith
      · unfold wideX wideLocate halves UnitChange.pos
        dsimp only
        linarith) rfl (fun s hs => by cases hs)
    ⟨rfl, rfl, rfl, wide_solves, rfl, rfl, ⟨fun _ _ => rfl, fun _ _ _ _ h => h, fun _ h => h⟩⟩
    (by obtain ⟨h1, h2, h3, h4, h5⟩ := sim_good []; exact ⟨h1, h2, h3, h4, h5⟩) n
    (by
      intro gs hgs a ha q hq
      cases hgs
      simp only [List.mem_singleton] at ha
      subst ha
      simp only [coupleWide, List.mem_cons, List.not_mem_nil, or_false] at hq
      rcases hq with rfl | rfl <;> exact ⟨by unfold InItsCell; decide +kernel, rfl⟩)
    (sim_fresh n) (by decide) (fun h => by cases h) (by norm_num) (units_grid halves_valid sheet_grid) sheet_marks sheet_given (create_eq sheet_given) hr
  exact h2

/-- C117 applies. -/
example (n : Nat) {i0 i0' : Ideal ℚ ℚ SimPart (Unit × Vec ℚ 1)} {is is' : List (Ideal ℚ ℚ SimPart (Unit × Vec ℚ 1))}
    (hr : sheetRun couple n = .ok (i0, is)) (hr' : wideRun coupleWide n = .ok (i0', is')) :
    List.Forall₂ (fun j j' => j'.count = j.count ∧ j'.time = 2 * j.time ∧ Converted halves j.pops j'.pops) (i0 :: is) (i0' :: is') := by
  obtain ⟨-, h2, h3, -⟩ := sheet_chain couple (by
    intro q hq
    simp only [couple, List.mem_cons, List.not_mem_nil, or_false] at hq
    rcases hq with rfl | rfl <;> exact ⟨by unfold InItsCell; decide +kernel, rfl⟩) n hr
  have h2' := wide_chain n hr'
  refine C117_run halves_valid one_pos sheet_grid (cfg := sheetCfg) (cfg' := wideCfg) (locate' := wideLocate) (qom := fun _ => -1) (by decide +kernel) rfl (fun _ _ _ => rfl)
    (fun y => by unfold wideLocate halves UnitChange.pos; congr 1; dsimp only; ring) hr hr' h2 ?_ h3 (by decide) (by decide) rfl (by decide +kernel)
    (by unfold Converted; decide +kernel) (fun name => ?_) (fun name count time side side' => rfl)
  · have e1 : halves.perm .cartesian 1 = 2 := by decide +kernel
    have e2 : halves.val (.num 0) = .num 0 := by simp [UnitChange.val, UnitChange.volt]
    have e3 : halves.volt 0 = 0 := by decide +kernel
    have e4 : halves.ratio (-1) = -1 := by decide +kernel
    rw [e1, e2, e3, e4]
    exact h2'
  · unfold given
    by_cases h : name = "e"
    · subst h
      decide +kernel
    · simp [Ne.symm h]
example : (wideRun coupleWide 2).toOption.isSome = true := by decide +kernel

end Demo

end Dt
