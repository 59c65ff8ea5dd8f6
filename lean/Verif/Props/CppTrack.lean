import Verif.Lemmas.CppTrack
import Verif.Props.CppMover
import Verif.Props.BC
import Verif.Props.Traj
import Verif.Lemmas.LineMesh

/-!
# The compiled movers and the Python movers move particles alike (C66)

`cm.Twin M` says that the arrays of the compiled code and the dictionaries of the Python code
describe the same mesh.  The callbacks of the two sides are arbitrary functions that give the same
results (a missing callback is a failure on both sides).
-/

set_option linter.unusedSectionVars false

namespace Dt
open SAP Spec CppMover
variable {K : Type} [Field K] [LinearOrder K] [IsStrictOrderedRing K] {g p : Nat} {τ ρ : Type}

/-- The scratch array is used consistently by the charged movers and by the three-dimensional
neutral mover, and not by the two-dimensional neutral mover. -/
theorem C66_layouts : (layoutX : Layout K 1).Right ∧ (layoutXY : Layout K 2).Right ∧
    (layoutXYZ : Layout K 3).Right ∧ ¬ (layoutNeutralXY : Layout K 2).Right := by
  refine ⟨?_, ?_, ?_, ?_⟩
  · intro s x x0 i
    fin_cases i
    simp [layoutX, fillX, Scratch.put]
  · intro s x x0 i
    fin_cases i <;> simp [layoutXY, fillXY, Scratch.put]
  · intro s x x0 i
    fin_cases i <;> simp [layoutXYZ, fillXYZ, Scratch.put]
  · intro h
    have := (h (fun _ => 0) ![1, 1] ![1, 1] 0).2.2
    simp [layoutNeutralXY, fillNeutralXY, Scratch.put] at this

/-- **C66 (charged particle).** One step of a charged particle in the same field: the compiled code
succeeds exactly if the Python code does, and then gives the same particle (position, start point,
velocity, cell, flags, crossings), the same recorded crossings, and the same user state, whatever
the scratch array held. -/
theorem C66_charged_particle {cm : CppMesh K} {M : Mesh K g} (ht : cm.Twin M) (h : g ≤ p)
    {L : Layout K p} (hL : L.Right)
    {bcC bcP : Int → τ → BCall K g p ρ → Except Err (τ × Part K p ρ)}
    (hbc : ∀ v st c, SameOk (bcC v st c) (bcP v st c)) (n : Nat) (time dt qmdt : K)
    (E : Part K p ρ → Option (Vec K p)) (st : τ × Vec K p) (sc : Scratch K) (q : Part K p ρ)
    (st' : τ × Vec K p) (q' : Part K p ρ) (evs : List (Part K p ρ × K)) :
    (∃ sc', cppMoveCharged h L cm bcC n time dt qmdt E (st, sc) q = .ok ((st', sc'), q', evs)) ↔
      moveCharged h M .charged bcP n time dt qmdt false E st q = .ok (st', q', evs) := by
  have key := moveCharged_sim ht h hL hbc n time dt qmdt E (st, sc) st q rfl
  constructor
  · rintro ⟨sc', e⟩
    obtain ⟨st2, e2, hR⟩ := key.1 _ _ e
    simp only at hR
    rw [hR]; exact e2
  · intro e
    obtain ⟨⟨st1, sc'⟩, e1, hR⟩ := key.2 _ _ e
    simp only at hR
    subst hR
    exact ⟨sc', e1⟩

/-- **C66 (neutral particle).** The same for a neutral particle, provided the callbacks do not look
at the move vector (which the Python mover does not keep up to date, C31). -/
theorem C66_neutral_particle {cm : CppMesh K} {M : Mesh K g} (ht : cm.Twin M) (h : g ≤ p)
    {L : Layout K p} (hL : L.Right)
    {bcC bcP : Int → τ → BCall K g p ρ → Except Err (τ × Part K p ρ)}
    (hbc : ∀ v st c, SameOk (bcC v st c) (bcP v st c))
    (hdx : ∀ value st c d, bcP value st { c with dx := d } = bcP value st c)
    (n : Nat) (time dt : K) (u : τ) (d d2 : Vec K p) (sc : Scratch K) (q : Part K p ρ)
    (u' : τ) (q' : Part K p ρ) (evs : List (Part K p ρ × K)) :
    (∃ d' sc', cppMoveNeutral h L cm bcC n time dt ((u, d), sc) q = .ok (((u', d'), sc'), q', evs)) ↔
      ∃ d', moveNeutral h M .neutral bcP n time dt (u, d2) q = .ok ((u', d'), q', evs) := by
  have key := moveNeutral_sim ht h hL hbc hdx n time dt ((u, d), sc) (u, d2) q rfl
  constructor
  · rintro ⟨d', sc', e⟩
    obtain ⟨⟨u2, d3⟩, e2, hR⟩ := key.1 _ _ e
    simp only at hR
    subst hR
    exact ⟨d3, e2⟩
  · rintro ⟨d', e⟩
    obtain ⟨⟨⟨u1, d1⟩, sc'⟩, e1, hR⟩ := key.2 _ _ e
    simp only at hR
    subst hR
    exact ⟨d1, sc', e1⟩

section
variable {δ : Type}

/-- **C66 (a time step of a charged species).** Both containers hold the particles `xs`, both sides
start with the same trajectory data and user state.  Then either both fail, or afterwards both hold
the same particles in the same order, the same trajectory data and the same user state. -/
theorem C66_charged_step {cm : CppMesh K} {M : Mesh K g} (ht : cm.Twin M) (h : g ≤ p)
    {L : Layout K p} (hL : L.Right)
    {bcC bcP : Int → τ → BCall K g p ρ → Except Err (τ × Part K p ρ)}
    (hbc : ∀ v st c, SameOk (bcC v st c) (bcP v st c)) (n : Nat) (time dt qmdt : K)
    (E : Part K p ρ → Option (Vec K p))
    (np : Nat) (ls : Option Int) (step : Int) (mkC mkF : Int → K → Part K p ρ → δ)
    {s : CSAP (Part K p ρ)} (hs : Used s) {sp : SAP (Part K p ρ)} (hp : Reachable sp)
    {xs : List (Part K p ρ)} (hx : CStores s xs) (hxp : Stores sp xs) (hne : xs ≠ [])
    (hbig : xs.length < 4294967296) (st : τ × Vec K p) (sc : Scratch K) (t : TrajSp δ) :
    let compiled := cppPass (fun _ => false)
      (TrajSp.adv np ls step time dt (·.traj) (·.del) mkC mkF
        (cppMoveCharged h L cm bcC n time dt qmdt E)) s ((st, sc), t)
    let python := Mover.meshPass
      (TrajSp.adv np ls step time dt (·.traj) (·.del) mkC mkF
        (moveCharged h M .charged bcP n time dt qmdt false E)) sp (st, t)
    (∃ e1 e2, compiled = .error e1 ∧ python = .error e2) ∨
    ∃ s' sp' st' sc' t' ys, compiled = .ok (s', ((st', sc'), t')) ∧
      python = .ok (sp', (st', t')) ∧ CStores s' ys ∧ Stores sp' ys ∧ Used s' := by
  intro compiled python
  have sim := pass_sim (skip_sim (trajAdv_sim (δ := δ)
    (R := fun (a : (τ × Vec K p) × Scratch K) (b : τ × Vec K p) => a.1 = b)
    (fun st1 st2 x hR => moveCharged_sim ht h hL hbc n time dt qmdt E st1 st2 x hR)
    np ls step time dt (·.traj) (·.del) mkC mkF) (fun _ => false)) xs ((st, sc), t) (st, t) 0 0
    ⟨rfl, rfl⟩
  have k1 := C65_pass_refines_list (fun _ => false)
    (TrajSp.adv np ls step time dt (·.traj) (·.del) mkC mkF
        (cppMoveCharged h L cm bcC n time dt qmdt E)) hs hx hne hbig ((st, sc), t)
  have hnp : sp.getNumberOfItems ≠ 0 := by
    rw [hxp.1]; have := List.length_pos_iff.2 hne; omega
  have k2 := C11_pass_refines_list (TrajSp.adv np ls step time dt (·.traj) (·.del) mkC mkF
        (moveCharged h M .charged bcP n time dt qmdt false E)) hp hnp xs hxp.1.symm hxp.2 (st, t)
  have hsk : ∀ adv : Adv ((τ × Vec K p) × TrajSp δ) (Part K p ρ),
      skipping (fun _ => false) adv = adv := by
    intro adv; funext st i o ic x; simp [skipping]
  rw [hsk] at sim
  rcases sim.cases with ⟨e1, e2, h1, h2⟩ | ⟨⟨⟨st1, sc1⟩, t1⟩, ⟨st2, t2⟩, ys, h1, h2, hR, hT⟩
  · rw [h1] at k1
    rw [h2] at k2
    exact .inl ⟨e1, e2, k1, k2⟩
  · rw [h1] at k1
    rw [h2] at k2
    simp only at hR hT
    subst hR hT
    obtain ⟨s', a1, a2, a3⟩ := k1
    obtain ⟨sp', b1, b2, b3, -⟩ := k2
    exact .inr ⟨s', sp', st1, sc1, t1, ys, a1, b1, a2, ⟨b2, b3⟩, a3⟩

/-- **C66 (a time step of a neutral species).** The same for the three-dimensional neutral mover:
the callbacks do not look at the move vector, and no particle in the storage is flagged as
deleted. -/
theorem C66_neutral_step {cm : CppMesh K} {M : Mesh K g} (ht : cm.Twin M) (h : g ≤ p)
    {L : Layout K p} (hL : L.Right)
    {bcC bcP : Int → τ → BCall K g p ρ → Except Err (τ × Part K p ρ)}
    (hbc : ∀ v st c, SameOk (bcC v st c) (bcP v st c))
    (hdx : ∀ value st c d, bcP value st { c with dx := d } = bcP value st c)
    (n : Nat) (time dt : K)
    (np : Nat) (ls : Option Int) (step : Int) (mkC mkF : Int → K → Part K p ρ → δ)
    {s : CSAP (Part K p ρ)} (hs : Used s) {sp : SAP (Part K p ρ)} (hp : Reachable sp)
    {xs : List (Part K p ρ)} (hx : CStores s xs) (hxp : Stores sp xs) (hne : xs ≠ [])
    (hbig : xs.length < 4294967296) (hdel : ∀ x ∈ xs, x.del = false)
    (u : τ) (d d2 : Vec K p) (sc : Scratch K) (t : TrajSp δ) :
    let compiled := cppPass (·.del)
      (TrajSp.adv np ls step time dt (·.traj) (·.del) mkC mkF
        (cppMoveNeutral h L cm bcC n time dt)) s (((u, d), sc), t)
    let python := Mover.meshPass
      (TrajSp.adv np ls step time dt (·.traj) (·.del) mkC mkF
        (moveNeutral h M .neutral bcP n time dt)) sp ((u, d2), t)
    (∃ e1 e2, compiled = .error e1 ∧ python = .error e2) ∨
    ∃ s' sp' u' d' d2' sc' t' ys, compiled = .ok (s', (((u', d'), sc'), t')) ∧
      python = .ok (sp', ((u', d2'), t')) ∧ CStores s' ys ∧ Stores sp' ys ∧ Used s' ∧
      ∀ y ∈ ys, y.del = false := by
  intro compiled python
  have sim := pass_sim (trajAdv_sim (δ := δ)
    (R := fun (a : (τ × Vec K p) × Scratch K) (b : τ × Vec K p) => a.1.1 = b.1)
    (fun st1 st2 x hR => moveNeutral_sim ht h hL hbc hdx n time dt st1 st2 x hR)
    np ls step time dt (·.traj) (·.del) mkC mkF) xs (((u, d), sc), t) ((u, d2), t) 0 0
    ⟨rfl, rfl⟩
  have k1 := C65_pass_refines_list (·.del)
    (TrajSp.adv np ls step time dt (·.traj) (·.del) mkC mkF
        (cppMoveNeutral h L cm bcC n time dt)) hs hx hne hbig (((u, d), sc), t)
  have hnp : sp.getNumberOfItems ≠ 0 := by
    rw [hxp.1]; have := List.length_pos_iff.2 hne; omega
  have k2 := C11_pass_refines_list (TrajSp.adv np ls step time dt (·.traj) (·.del) mkC mkF
        (moveNeutral h M .neutral bcP n time dt)) hp hnp xs hxp.1.symm hxp.2 ((u, d2), t)
  obtain ⟨hidle, hsurv⟩ := skip_idle_pass (·.del)
    (TrajSp.adv np ls step time dt (·.traj) (·.del) mkC mkF
        (cppMoveNeutral h L cm bcC n time dt)) (by
      rintro ⟨st0, t0⟩ i o ic q st' q' e
      unfold TrajSp.adv at e
      simp only [bind, Except.bind] at e
      split at e
      · cases e
      · split at e
        · cases e
        · split at e
          · split at e
            · cases e
            · simp only [pure, Except.pure, Except.ok.injEq, Prod.mk.injEq] at e
              exact absurd e.2.2 (by simp)
          · rename_i hd
            split at e
            · cases e
            · simp only [pure, Except.pure, Except.ok.injEq, Prod.mk.injEq] at e
              rw [← e.2.1]
              simpa using hd) xs (((u, d), sc), t) 0 0 hdel
  rw [hidle] at k1
  rcases sim.cases with ⟨e1, e2, h1, h2⟩ |
    ⟨⟨⟨⟨u1, d1⟩, sc1⟩, t1⟩, ⟨⟨u2, d3⟩, t2⟩, ys, h1, h2, hR, hT⟩
  · rw [h1] at k1
    rw [h2] at k2
    exact .inl ⟨e1, e2, k1, k2⟩
  · rw [h1] at k1
    rw [h2] at k2
    simp only at hR hT
    subst hR hT
    obtain ⟨s', a1, a2, a3⟩ := k1
    obtain ⟨sp', b1, b2, b3, -⟩ := k2
    exact .inr ⟨s', sp', u1, d1, d3, sc1, t1, ys, a1, b1, a2, ⟨b2, b3⟩, a3, hsurv _ _ h1⟩

end

/-! ### The hypotheses are met -/

/-- What the compiled arrays hold for the interval mesh `lineMesh x N marker`. -/
def lineCpp (x : Nat → K) (N : Nat) (marker : Int → Int) : CppMesh K where
  coords := (List.range (N + 1)).map x
  cell ci := if 0 ≤ ci ∧ ci < N then
      let i := ci.toNat
      some ⟨[i, i + 1], (lineCell x N i).facets, (lineCell x N i).neighbors,
        ⟨[-1, 0, 0, 1, 0, 0], [x i, x (i + 1)]⟩⟩
    else none
  marker := marker

/-- The arrays of an interval mesh and the dictionaries of `lineMesh` describe the same mesh. -/
theorem C66_interval_mesh {x : Nat → K} {N : Nat} {marker : Int → Int}
    (hx : ∀ i, i < N → x i < x (i + 1)) : (lineCpp x N marker).Twin (lineMesh x N marker) := by
  constructor
  · intro ci c h
    obtain ⟨i, rfl, hi, rfl⟩ := lineMesh_cell h
    refine ⟨lineCell_regular (hx i hi), ⟨[i, i + 1], (lineCell x N i).facets,
      (lineCell x N i).neighbors, ⟨[-1, 0, 0, 1, 0, 0], [x i, x (i + 1)]⟩⟩, ?_, ?_⟩
    · simp only [lineCpp]
      rw [if_pos ⟨by omega, by omega⟩]
      simp
    · refine ⟨⟨?_, ?_⟩, ?_, rfl, rfl⟩
      · intro k n hn j
        rw [Subsingleton.elim j 0]
        rcases k with _ | _ | k
        · simp only [lineCell, List.getElem?_cons_zero, Option.some.injEq] at hn
          subst hn; simp
        · simp only [lineCell, Nat.zero_add, List.getElem?_cons_succ, List.getElem?_cons_zero,
            Option.some.injEq] at hn
          subst hn; simp
        · simp [lineCell] at hn
      · intro k n hn j
        rw [Subsingleton.elim j 0]
        rcases k with _ | _ | k
        · simp only [lineCell, List.getElem?_cons_zero, Option.some.injEq] at hn
          subst hn; simp
        · simp only [lineCell, Nat.zero_add, List.getElem?_cons_succ, List.getElem?_cons_zero,
            Option.some.injEq] at hn
          subst hn; simp
        · simp [lineCell] at hn
      · intro k n hn
        rcases k with _ | _ | k
        · simp only [lineCell, List.getElem?_cons_zero, Option.some.injEq] at hn
          subst hn
          refine ⟨i, rfl, fun j => ?_⟩
          rw [Subsingleton.elim j 0]
          simp [lineCpp, List.getElem?_range (show i < N + 1 by omega)]
        · simp only [lineCell, Nat.zero_add, List.getElem?_cons_succ, List.getElem?_cons_zero,
            Option.some.injEq] at hn
          subst hn
          refine ⟨i + 1, rfl, fun j => ?_⟩
          rw [Subsingleton.elim j 0]
          simp [lineCpp, List.getElem?_range (show i + 1 < N + 1 by omega)]
        · simp [lineCell] at hn
  · intro ci h
    simp only [lineMesh, ite_eq_right_iff, reduceCtorEq, imp_false] at h
    simp only [lineCpp]
    rw [if_neg h]
  · rfl

/-- The compiled form of `demoLine`. -/
def demoLineCpp : CppMesh ℚ := lineCpp (fun i => (i : ℚ)) 3
  (fun F => if F = 0 then 1 else if F = 3 then 2 else 0)

theorem demoLineCpp_twin : demoLineCpp.Twin demoLine :=
  C66_interval_mesh (fun i _ => by push_cast; linarith)

/-- A step with reflection at x = 0 and a crossing into cell 1, in both codes. -/
example : (cppMoveCharged (le_refl 1) layoutX demoLineCpp demoBC 10 5 2 1 (fun _ => none)
      (((), ![0]), fun _ => 99) (demoPart (1/2) (-1) 0 true)).map
      (fun t => [t.2.1.x 0, t.2.1.x0 0, t.2.1.u 0, (t.2.1.cell : ℚ), t.2.1.crossings] ++
        t.2.2.map Prod.snd) =
    (moveCharged (le_refl 1) demoLine .charged demoBC 10 5 2 1 false (fun _ => none) ((), ![0])
      (demoPart (1/2) (-1) 0 true)).map
      (fun t => [t.2.1.x 0, t.2.1.x0 0, t.2.1.u 0, (t.2.1.cell : ℚ), t.2.1.crossings] ++
        t.2.2.map Prod.snd) ∧
    (moveCharged (le_refl 1) demoLine .charged demoBC 10 5 2 1 false (fun _ => none) ((), ![0])
      (demoPart (1/2) (-1) 0 true)).map (fun t => t.2.1.crossings) = .ok 2 := by
  decide +kernel

/-- The hypothesis on the callbacks of the neutral theorems is met by absorbing callbacks. -/
example : ∀ (value : Int) (st : Unit) (c : BCall ℚ 1 1 Nat) (d : Vec ℚ 1),
    (fun (_ : Int) st b => bcAbsorb st b) value st { c with dx := d } =
      (fun (_ : Int) st b => bcAbsorb st b) value st c := fun _ _ _ _ => rfl

/-- **C66 fails for the two-dimensional compiled neutral mover**: a particle of the triangle
`demoTri` moves to the right and leaves through facet 0 after a third of its move.  Python records
the crossing at that time; the compiled code, given another start point, finds another time, which
depends on what the scratch array held. -/
theorem C66_false_neutral_xy :
    let q : Part ℚ 2 Nat := ⟨![1/2, 1/4], ![1/2, 1/4], ![3/2, 0], 0, false, true, 0, 7⟩
    let cm : CppMesh ℚ := ⟨[0,0, 1,0, 1,1], fun i => if i = 0 then
      some ⟨[0, 1, 2], demoTri.facets, demoTri.neighbors, demoTriCpp⟩ else none, fun _ => 1⟩
    let bc : Int → Unit → BCall ℚ 2 2 Nat → Except Err (Unit × Part ℚ 2 Nat) :=
      fun _ st b => .ok (st, { b.part with del := true })
    (moveNeutral (le_refl 2) demoTriMesh .neutral bc 10 1 1 ((), ![0, 0]) q).map
      (fun t => t.2.2.map Prod.snd) = .ok [1/3] ∧
    (cppMoveNeutral (le_refl 2) layoutNeutralXY cm bc 10 1 1 (((), ![0, 0]), fun _ => 0) q).map
      (fun t => t.2.2.map Prod.snd) = .ok [2/3] ∧
    (cppMoveNeutral (le_refl 2) layoutNeutralXY cm bc 10 1 1 (((), ![0, 0]), fun _ => 1/4) q).map
      (fun t => t.2.2.map Prod.snd) = .ok [1/2] ∧
    (cppMoveNeutral (le_refl 2) layoutXY cm bc 10 1 1 (((), ![0, 0]), fun _ => 0) q).map
      (fun t => t.2.2.map Prod.snd) = .ok [1/3] := by
  decide +kernel

end Dt
