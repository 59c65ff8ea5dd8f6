import Verif.Props.Simulation
import Verif.Lemmas.Leapfrog

/-!
# A simulation as leapfrog steps of lists of particles (C75)
-/

set_option linter.unusedSectionVars false

namespace Dt
open TimeLoop
open Spec (LState Stores Pop Ideal Fault lastOf)
variable {K V : Type} [Field K] [LinearOrder K] [IsStrictOrderedRing K] {g p : Nat} {τ ρ φ : Type}

theorem kin_moved (dt qom : K) (E : Part K p ρ → Option (Vec K p)) (q : Part K p ρ) :
    kin (movedPart dt (qom * dt) E q) = leap dt qom (E q) (kin q) := by
  unfold kin movedPart moveBy accelerate leap
  cases E q with
  | none =>
    have h0 : (qom * dt) • (0 : Vec K p) = 0 := by funext i; simp
    simp only [Option.getD_none, h0, add_zero]
  | some e => rfl

/-- C75 (one particle).  On a conforming mesh of a convex domain, with boundary conditions that only
delete, a particle that is present and whose move succeeds makes a leapfrog step, and is marked for
deletion exactly if it ends outside the domain. -/
theorem C75_particle {h : g ≤ p} {M : Mesh K g} (hM : M.Conforming) {dom : Vec K g → Bool}
    (hd : M.Convex dom) {v : Variant} (hv : v.datum = .ok ())
    {bc : Int → τ → BCall K g p ρ → Except Err (τ × Part K p ρ)} (hb : PlainBC M bc) {n : Nat}
    {time dt qom : K} {E : Part K p ρ → Option (Vec K p)} {st st' : τ × Vec K p} {q q' : Part K p ρ}
    {evs : List (Part K p ρ × K)} (hq : Present h M q)
    (e : moveCharged h M v bc n time dt (qom * dt) false E st q = .ok (st', q', evs)) :
    kin q' = leap dt qom (E q) (kin q) ∧ q'.del = !dom (proj h q'.x) := by
  unfold moveCharged at e
  simp only [Bool.false_eq_true, if_false] at e
  change (do let s ← track h M v bc n (startTrk time dt st.1 st.2 (movedPart dt (qom * dt) E q)); _) = _ at e
  cases ht : track h M v bc n (startTrk time dt st.1 st.2 (movedPart dt (qom * dt) E q)) with
  | error e' => rw [ht] at e; cases e
  | ok s =>
    rw [ht] at e
    simp only [bind, Except.bind, pure, Except.pure, Except.ok.injEq, Prod.mk.injEq] at e
    obtain ⟨-, rfl, -⟩ := e
    have hdel : (movedPart dt (qom * dt) E q).del = false := by
      unfold movedPart moveBy accelerate
      cases E q <;> exact hq.2
    obtain ⟨h1, h2⟩ := plainly_track hM hd hv hb n
      (k := leap dt qom (E q) (kin q)) ⟨kin_moved dt qom E q, fun _ => moved_sound hM time dt _ E _ _ hq.1,
        fun h0 => absurd h0 (by simp [startTrk, hdel])⟩ (by simpa [startTrk] using hdel) ht
    exact ⟨h1.kin, h2⟩

/-- The survivors of a pass, for movers that treat the particles independently. -/
theorem pass_filter {α σ κ : Type} (key F : α → κ) (keep : κ → Bool) {adv : Adv σ α} {P : α → Prop}
    (hk : ∀ st i o b x st' y f, P x → adv st i o b x = .ok (st', y, f) → key y = F x ∧ f = keep (F x))
    {xs ys : List α} (hx : ∀ x ∈ xs, P x) : ∀ {st st' : σ} {i o : Nat},
      Spec.pass adv st i o xs = .ok (st', ys) → ys.map key = (xs.map F).filter keep := by
  induction xs generalizing ys with
  | nil =>
    intro st st' i o h
    simp only [Spec.pass, Except.ok.injEq, Prod.mk.injEq] at h
    rw [← h.2]; rfl
  | cons x xs ih =>
    intro st st' i o h
    have hx' : ∀ y ∈ xs, P y := fun y hy => hx y (by simp [hy])
    simp only [Spec.pass] at h
    split at h
    · cases h
    · rename_i s1 y he
      obtain ⟨h1, h2⟩ := hk _ _ _ _ _ _ _ _ (hx x (by simp)) he
      split at h
      · cases h
      · rename_i s2 zs hz
        cases h
        simp [h1, ← h2, ih hx' hz]
    · rename_i s1 y he
      obtain ⟨h1, h2⟩ := hk _ _ _ _ _ _ _ _ (hx x (by simp)) he
      simp [← h2, ih hx' h]

section
variable {α σ κ : Type}

theorem moveAll_filter (key : α → κ) (F : String → α → κ) (keep : κ → Bool) {sl : Nat}
    {mv : String → Adv σ α} {P : α → Prop}
    {ps ps' : List (Pop K V α)} (hk : ∀ s ∈ ps, ∀ st i o b x st' y f, P x →
      mv s.name st i o b x = .ok (st', y, f) → key y = F s.name x ∧ f = keep (F s.name x))
    (hx : AllOf P ps) {side side' : σ} (h : Spec.moveAll sl mv ps side = .ok (ps', side')) :
    List.Forall₂ (fun s s' => s'.name = s.name ∧ s'.charge = s.charge ∧ s'.mass = s.mass ∧
      s'.index = s.index ∧ s'.st.items.map key = if s.charge = 0 then s.st.items.map key
        else (s.st.items.map (F s.name)).filter keep) ps ps' := by
  induction ps generalizing ps' side with
  | nil =>
    simp only [Spec.moveAll, Except.ok.injEq, Prod.mk.injEq] at h
    rw [← h.1]; exact .nil
  | cons s ps ih =>
    simp only [Spec.moveAll] at h
    split at h
    · cases h
    · rename_i p' side1 hp
      split at h
      · cases h
      · rename_i ps2 side2 hps
        cases h
        refine .cons ?_ (ih (fun s hs => hk s (by simp [hs])) (fun s hs => hx s (by simp [hs])) hps)
        unfold Spec.movePop at hp
        split at hp
        · rename_i hc
          cases hp
          refine ⟨rfl, rfl, rfl, rfl, ?_⟩
          split
          · rfl
          · rename_i h0
            rw [hc.resolve_left h0]; rfl
        · rename_i hne
          split at hp
          · cases hp
          · cases hp
          · rename_i side3 y ys hpass
            cases hp
            refine ⟨rfl, rfl, rfl, rfl, ?_⟩
            rw [if_neg (fun h0 => hne (.inl h0))]
            exact pass_filter key (F s.name) keep (hk s (by simp)) (hx s (by simp)) hpass

end

/-- One step of a simulation in which a successful move of a particle that is present is `motion`, and
deletes the particles for which `keep` does not hold. -/
theorem motion_step {h : g ≤ p} {M : Mesh K g}
    {bc : String → Int → τ → BCall K g p ρ → Except Err (τ × Part K p ρ)} {maxCross : Nat} {qom : String → K}
    {E : String → φ → Part K p ρ → Option (Vec K p)} {cfg : Cfg K V (Part K p ρ) (τ × Vec K p) φ}
    {motion : String → φ → Part K p ρ → Vec K p × Vec K p × ρ} {keep : Vec K p → Bool}
    (hpart : ∀ sn f time st q st' q' evs, Present h M q →
      moveCharged h M .charged (bc sn) maxCross time cfg.dt (qom sn * cfg.dt) false (E sn f) st q =
        .ok (st', q', evs) → kin q' = motion sn f q ∧ q'.del = !keep q'.x)
    (hmove : cfg.move = pyMove h M bc maxCross cfg.dt qom E) {sl D : Nat} {onMesh : Part K p ρ → Bool}
    {i j : Ideal K V (Part K p ρ) (τ × Vec K p)} (hn : (i.pops.map (·.name)).Nodup)
    (hp : AllOf (Present h M) i.pops) (e : i.step cfg sl D onMesh = .ok j) :
    MotionStep motion keep cfg sl D i j := by
  simp only [Ideal.step] at e
  unfold MotionStep Ideal.made
  split at e
  · cases e
  · rename_i ps side hmv
    split at e
    · cases e
    · rename_i ps2 side2 hcr
      have h1 := moveAll_filter kin (fun sn q => motion sn (cfg.fieldOf i.phi) q)
        (fun k => keep k.1) (P := Present h M) (mv := fun sn => cfg.move sn (cfg.fieldOf i.phi) (i.count + 1) (i.time + cfg.dt))
        (by
          intro s _ st a o b x st' y f hx ey
          rw [hmove] at ey
          unfold pyMove plainAdv at ey
          cases em : moveCharged h M .charged (bc s.name) maxCross (i.time + cfg.dt) cfg.dt
            (qom s.name * cfg.dt) false (E s.name (cfg.fieldOf i.phi)) st x with
          | error e' => rw [em] at ey; cases ey
          | ok r =>
            obtain ⟨st2, q2, evs⟩ := r
            rw [em] at ey
            simp only [bind, Except.bind, pure, Except.pure, Except.ok.injEq, Prod.mk.injEq] at ey
            obtain ⟨-, rfl, rfl⟩ := ey
            obtain ⟨k1, k2⟩ := hpart _ _ _ _ _ _ _ _ hx em
            refine ⟨k1, ?_⟩
            rw [k2, ← k1]
            simp [kin]) hp hmv
      have h2 := createAll_at (by rw [forall₂_names h1 (fun _ _ k => k.1)]; exact hn) hcr
      unfold Spec.settle at e
      split at e
      · cases e
        refine ⟨rfl, rfl, ?_, ?_⟩
        · simp [Spec.potential, Spec.chargeAt, Spec.looked, Function.comp_def]
        have h3 : List.Forall₂ (fun p p' => p' = Spec.looked p) ps2 (ps2.map Spec.looked) := by
          have : ∀ l : List (Pop K V (Part K p ρ)),
              List.Forall₂ (fun p p' => p' = Spec.looked p) l (l.map Spec.looked) := by
            intro l
            induction l with
            | nil => exact .nil
            | cons a as ih => exact .cons rfl ih
          exact this ps2
        refine forall₂_trans' ?_ (forall₂_trans' (T := fun s s' => s'.name = s.name ∧
          s'.charge = s.charge ∧ s'.mass = s.mass ∧ s'.index = s.index ∧
          s'.st.items.map kin = (if s.charge = 0 then s.st.items.map kin
            else (s.st.items.map (motion s.name (cfg.fieldOf i.phi))).filter (fun k => keep k.1)) ++
            (Spec.created s.name (i.count + 1) (i.time + cfg.dt) cfg.sources side).map kin) ?_ h1 h2) h3
        · rintro a b c ⟨e1, e2, e3, e4, e5⟩ rfl
          exact ⟨e1, e2, e3, e4, e5⟩
        · rintro a b c ⟨n1, c1, m1, i1, s1⟩ ⟨n2, c2, m2, i2, s2⟩
          refine ⟨n2.trans n1, c2.trans c1, m2.trans m1, i2.trans i1, ?_⟩
          rw [s2, List.map_append, s1, n1]
      · cases e

/-- C75 (one step). -/
theorem C75_step {h : g ≤ p} {M : Mesh K g} (hM : M.Conforming) {dom : Vec K g → Bool}
    (hd : M.Convex dom) {bc : String → Int → τ → BCall K g p ρ → Except Err (τ × Part K p ρ)}
    (hb : ∀ sn, PlainBC M (bc sn)) {maxCross : Nat} {qom : String → K}
    {E : String → φ → Part K p ρ → Option (Vec K p)} {cfg : Cfg K V (Part K p ρ) (τ × Vec K p) φ}
    (hmove : cfg.move = pyMove h M bc maxCross cfg.dt qom E) {sl D : Nat} {onMesh : Part K p ρ → Bool}
    {i j : Ideal K V (Part K p ρ) (τ × Vec K p)} (hn : (i.pops.map (·.name)).Nodup)
    (hp : AllOf (Present h M) i.pops) (e : i.step cfg sl D onMesh = .ok j) :
    LeapStep h dom qom E cfg sl D i j :=
  motion_step (fun sn _ _ _ _ _ _ _ hx em => C75_particle hM hd rfl (hb sn) hx em) hmove hn hp e

theorem steps_chain {α σ : Type} {cfg : Cfg K V α σ φ} {sl D : Nat} {onMesh : α → Bool} {n : Nat}
    {i : Ideal K V α σ} {is : List (Ideal K V α σ)} (e : Ideal.steps cfg sl D onMesh n i = .ok is) :
    (i :: is).IsChain (fun a b => a.step cfg sl D onMesh = .ok b) := by
  induction n generalizing i is with
  | zero => cases e; simp
  | succ n ih =>
    simp only [Ideal.steps] at e
    split at e
    · cases e
    · rename_i i1 h1
      split at e
      · cases e
      · rename_i is1 h2
        cases e
        exact List.isChain_cons_cons.2 ⟨h1, ih h2⟩

/-- A whole simulation in which a successful move of a particle that is present is `motion`. -/
theorem motion_run {h : g ≤ p} {M : Mesh K g}
    {bc : String → Int → τ → BCall K g p ρ → Except Err (τ × Part K p ρ)} {maxCross : Nat} {qom : String → K}
    {E : String → φ → Part K p ρ → Option (Vec K p)} {cfg : Cfg K V (Part K p ρ) (τ × Vec K p) φ}
    {motion : String → φ → Part K p ρ → Vec K p × Vec K p × ρ} {keep : Vec K p → Bool}
    (hpart : ∀ sn f time st q st' q' evs, Present h M q →
      moveCharged h M .charged (bc sn) maxCross time cfg.dt (qom sn * cfg.dt) false (E sn f) st q =
        .ok (st', q', evs) → kin q' = motion sn f q ∧ q'.del = !keep q'.x)
    (hcell : ∀ sn, KeepsCell (bc sn))
    (hmove : cfg.move = pyMove h M bc maxCross cfg.dt qom E) (hsrc : SourcesPresent h M cfg.sources)
    {onMesh : Part K p ρ → Bool} {d : Nat → Nat} {sl D C : Nat}
    (hc : GoodCfg cfg) (hm : GoodMesh cfg onMesh d D C) {z : Species.HRow K} (n : Nat)
    {init : Option (List (String × List (Part K p ρ)))} (hinit : InitPresent h M init)
    {st : State K V (Part K p ρ) (τ × Vec K p) φ} {i : Ideal K V (Part K p ρ) (τ × Vec K p)} {b : List K}
    (hf : Fresh sl D C n z st i b) (hn : (i.pops.map (·.name)).Nodup)
    (hnone : st.writer = none → cfg.partEvery = none)
    {i0 : Ideal K V (Part K p ρ) (τ × Vec K p)} {is : List (Ideal K V (Part K p ρ) (τ × Vec K p))}
    (hr : Ideal.run cfg sl D onMesh init b n i = .ok (i0, is)) :
    (i0 :: is).IsChain (MotionStep motion keep cfg sl D) ∧
    ∃ st', run cfg init n st = .ok st' ∧ Outcome cfg d C init.isSome b st st' i0 is := by
  obtain ⟨-, st', e, ho, -⟩ := C73_in_its_cell hmove hcell hsrc hc hm n hinit hf hnone hr
  refine ⟨?_, st', e, ho⟩
  have hgood : Good (Present h M) (fun _ => True) cfg onMesh (i.pops.map (·.name)) (fun _ => True) :=
    ⟨trivial, .inr trivial,
      fun s hs => ⟨.inr trivial, .inr trivial, trivial, fun count time side =>
        ⟨fun side' xs e => hsrc s hs _ _ _ _ _ e, fun _ _ => trivial⟩⟩,
      fun sn _ _ f c t => by rw [hmove]; exact pyMove_keeps (hcell sn) (fun _ _ _ _ _ => trivial)⟩
  have h1 := run_res hgood sl D n (init := init)
    (fun gs hgs a ha => ⟨.inr trivial, hinit gs hgs a ha⟩) b (i := i)
    ⟨fun pop hp q hq => (by rw [hf.empty pop hp] at hq; cases hq), rfl, fun _ _ _ => trivial⟩
    (fun pop hp => by rw [hf.empty pop hp])
  rw [hr] at h1
  have hch : (i0 :: is).IsChain (fun a b => a.step cfg sl D onMesh = .ok b) := by
    unfold Ideal.run at hr
    split at hr
    · cases hr
    · rename_i j0 h0
      split at hr
      · cases hr
      · rename_i js hs
        cases hr
        exact steps_chain hs
  clear hr ho
  have key : ∀ L : List (Ideal K V (Part K p ρ) (τ × Vec K p)),
      (∀ j ∈ L, Inv (Present h M) (i.pops.map (·.name)) (fun _ => True) j.pops) →
      L.IsChain (fun a b => a.step cfg sl D onMesh = .ok b) → L.IsChain (MotionStep motion keep cfg sl D) := by
    intro L
    induction L with
    | nil => intro _ _; exact .nil
    | cons a L ih =>
      intro hI hL
      cases L with
      | nil => simp
      | cons a2 L =>
        rw [List.isChain_cons_cons] at hL ⊢
        refine ⟨?_, ih (fun j hj => hI j (by simp [hj])) hL.2⟩
        have ha := hI a (by simp)
        exact motion_step hpart hmove (by rw [ha.names]; exact hn) ha.all hL.1
  exact key _ h1 hch

/-- C75.  A whole simulation on a conforming mesh of a convex domain, with boundary conditions that
only delete: from each step to the next the particles make leapfrog steps in the field solved from the
charge of the particles, the particles outside the domain are dropped, and the particles made by the
sources are added.  Cells, facets and containers do not appear in `LeapStep`. -/
theorem C75_run {h : g ≤ p} {M : Mesh K g} (hM : M.Conforming) {dom : Vec K g → Bool}
    (hdom : M.Convex dom) {bc : String → Int → τ → BCall K g p ρ → Except Err (τ × Part K p ρ)}
    (hb : ∀ sn, PlainBC M (bc sn)) {maxCross : Nat} {qom : String → K}
    {E : String → φ → Part K p ρ → Option (Vec K p)} {cfg : Cfg K V (Part K p ρ) (τ × Vec K p) φ}
    (hmove : cfg.move = pyMove h M bc maxCross cfg.dt qom E) (hsrc : SourcesPresent h M cfg.sources)
    {onMesh : Part K p ρ → Bool} {d : Nat → Nat} {sl D C : Nat}
    (hc : GoodCfg cfg) (hm : GoodMesh cfg onMesh d D C) {z : Species.HRow K} (n : Nat)
    {init : Option (List (String × List (Part K p ρ)))} (hinit : InitPresent h M init)
    {st : State K V (Part K p ρ) (τ × Vec K p) φ} {i : Ideal K V (Part K p ρ) (τ × Vec K p)} {b : List K}
    (hf : Fresh sl D C n z st i b) (hn : (i.pops.map (·.name)).Nodup)
    (hnone : st.writer = none → cfg.partEvery = none)
    {i0 : Ideal K V (Part K p ρ) (τ × Vec K p)} {is : List (Ideal K V (Part K p ρ) (τ × Vec K p))}
    (hr : Ideal.run cfg sl D onMesh init b n i = .ok (i0, is)) :
    (i0 :: is).IsChain (LeapStep h dom qom E cfg sl D) ∧
    ∃ st', run cfg init n st = .ok st' ∧ Outcome cfg d C init.isSome b st st' i0 is :=
  motion_run (motion := fun sn f q => leap cfg.dt (qom sn) (E sn f q) (kin q)) (keep := fun x => dom (proj h x))
    (fun sn _ _ _ _ _ _ _ hx em => C75_particle hM hdom rfl (hb sn) hx em)
    (fun sn => (hb sn).keepsCell) hmove hsrc hc hm n hinit hf hn hnone hr

/-! ### The hypotheses are met -/

theorem sinkBC_plain : PlainBC demoLine sinkBC := by
  refine ⟨fun st call n _ _ => ⟨_, rfl⟩, ?_, ?_, ?_⟩
  · intro value st call st' q' e
    simp only [sinkBC, bcAbsorb, Except.ok.injEq, Prod.mk.injEq] at e
    rw [← e.2]
  · rintro st call st' q' e hm ⟨ci, c, k, cj, hc, hf, hn, hcj⟩
    exfalso
    obtain ⟨i, rfl, hi, rfl⟩ := lineMesh_cell hc
    apply hm
    simp only [demoLine, lineMesh]
    rcases k with _ | _ | k
    · simp only [lineCell, List.getElem?_cons_zero, Option.some.injEq] at hf hn
      rw [if_neg (by split at hn <;> omega), if_neg (by omega)]
    · simp only [lineCell, Nat.zero_add, List.getElem?_cons_succ, List.getElem?_cons_zero,
        Option.some.injEq] at hf hn
      rw [if_neg (by omega), if_neg (by split at hn <;> omega)]
    · simp [lineCell] at hf
  · intro st call st' q' n e _
    simp only [sinkBC, bcAbsorb, Except.ok.injEq, Prod.mk.injEq] at e
    rw [← e.2]

theorem demoLine_convex : demoLine.Convex (fun q => decide ((0 : ℚ) ≤ q 0 ∧ q 0 ≤ 3)) := by
  have := lineMesh_convex (x := fun i => (i : ℚ)) (N := 3)
    (marker := fun F => if F = 0 then 1 else if F = 3 then 2 else 0) (fun i _ => by push_cast; linarith)
  simpa [demoLine] using this

-- The simulation of `Simulation` on three cells.
example : ∃ i0 is, simRun [simSource] 3 = .ok (i0, is) ∧
    (i0 :: is).IsChain (LeapStep (le_refl 1) (fun q => decide ((0 : ℚ) ≤ q 0 ∧ q 0 ≤ 3)) (fun _ => -1) simField
      (simCfg [simSource]) 2 4) := by
  obtain ⟨⟨i0, is⟩, hr⟩ := sim_ok [simSource] 3 (by decide +kernel)
  exact ⟨i0, is, hr, (C75_run demoLine_conforming demoLine_convex (fun _ => sinkBC_plain)
    (cfg := simCfg [simSource]) rfl sim_sources (sim_good _) (sim_mesh _) 3 sim_init (sim_fresh 3)
    (by decide) (fun h => by cases h) hr).1⟩

/-- Positions and velocities in the states of a simulation. -/
def kinView (r : Except Fault (Ideal ℚ ℚ SimPart (Unit × Vec ℚ 1) × List (Ideal ℚ ℚ SimPart (Unit × Vec ℚ 1)))) :
    Option (List (List (ℚ × ℚ))) :=
  r.toOption.map (fun r => (r.1 :: r.2).map (fun i => i.pops.flatMap (fun p => p.st.items.map
    (fun q => (q.x 0, q.u 0)))))

example : kinView (simRun [simSource] 3) = some
    [[(1 / 2, 1), (3 / 2, 9), (5 / 2, -2)], [(793 / 800, 393 / 400), (1207 / 800, -793 / 400)],
      [(466147 / 320000, 148947 / 160000), (171053 / 320000, -311747 / 160000)],
      [(247428913 / 128000000, 60970113 / 64000000), (1 / 4, 1)]] := by decide +kernel

end Dt
