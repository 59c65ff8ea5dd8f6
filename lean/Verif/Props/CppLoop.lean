import Verif.Lemmas.CppLoop
import Verif.Props.TimeLoop
import Verif.Props.CppTrack
import Verif.Props.CppRun
import Verif.Props.Simulation

/-!
# Properties of a whole simulation with compiled movers and containers (C109)
-/

set_option linter.unusedSectionVars false

namespace Dt
open TimeLoop (Cfg Src GoodMesh GoodCfg)
open Spec (LState Pop Ideal lastOf dueStates filedStates wroteLast isDue Sim)
open CppLoop (GoodEvery groupI rowI)
variable {K V α σ φ : Type}

/-- What can be seen after a run of the compiled program that went through the states `i0`, `is` (the
side states are related by `R`): the containers, the particle file, the histories, the potential file
and the cell-density file. -/
structure CppOutcome [Field K] {σ' : Type} (R : σ → σ' → Prop) (cfg : Cfg K V α σ φ) (d : Nat → Nat)
    (C : Nat) (skip : Int) (init : Bool) (b : List K) (st0 st : CppLoop.State K V α σ φ)
    (i0 : Ideal K V α σ') (is : List (Ideal K V α σ')) : Prop where
  count : st.count = (lastOf i0 is).count
  time : st.time = (lastOf i0 is).time
  side : R st.side (lastOf i0 is).side
  particles : List.Forall₂ (fun sp p => sp.name = p.name ∧ CStores sp.sap p.st.items) st.sps
    (lastOf i0 is).pops
  phi : st.solver.phi = (lastOf i0 is).phi
  noFile : st0.file = none → st.file = none
  file : st0.file.isSome = true → ∃ f, st.file = some f ∧
    f.groups = (filedStates cfg.partEvery init i0 is).map (fun i => (i.count, i.time, i.filed))
  noHist : st0.hist = none → st.hist = none
  hist : st0.hist.isSome = true → ∃ h, st.hist = some h ∧
    h.rows = (i0 :: dueStates (some skip) is).map (fun i => (i.count, i.time, i.massed))
  phiLog : st.phiLog = (if cfg.fieldEvery.isSome then
      (i0.time, cfg.solve b) :: (if init then [(i0.time, i0.phi)] else []) else []) ++
    (dueStates cfg.fieldEvery is).map (fun i => (i.time, i.phi))
  cellLog : List.Forall₂ (Spec.DensityOf cfg d C)
    ((dueStates cfg.cellEvery is).flatMap (fun i => i.pops.map (fun p => (i.time, p)))) st.cellLog

section
variable [Field K] [DecidableEq K]

theorem cppRun_agree {cfg : Cfg K V α σ φ} {onMesh : α → Bool} {d : Nat → Nat} {sl D C : Nat}
    (h2 : 2 ≤ sl) (hc : GoodEvery cfg) (hm : GoodMesh cfg onMesh d D C) {skip : Int} (hskip : skip ≠ 0)
    (n : Nat) (init : Option (List (String × List α))) {st : CppLoop.State K V α σ φ}
    {i : Ideal K V α σ} {b : List K} (h : CppLoop.Fresh sl D C skip st i b)
    (hnone : st.file = none → cfg.partEvery = none) :
    CppLoop.Agree (fun r st' => r.2.length = n ∧ r.1.count = i.count ∧
        CppOutcome Eq cfg d C skip init.isSome b st st' r.1 r.2)
      (Spec.Comp.run cfg sl D onMesh init b n i) (CppLoop.run cfg init n st) := by
  have h1 := CppLoop.setUp_agree hm init h
  unfold Spec.Comp.run CppLoop.run
  cases hs : Spec.Comp.start cfg sl D onMesh init b i with
  | error f => rw [hs] at h1; exact h1.err _
  | ok i0 =>
    rw [hs] at h1
    obtain ⟨st1, e1, hr1, hc1, last, hl1, hle1, hiff1⟩ := h1
    simp only [e1, bind, Except.bind]
    have h3 := CppLoop.steps_agree h2 hc hm hskip n hr1 hl1 (by omega) (by
      intro hn
      apply hnone
      cases hw : st.file with
      | none => rfl
      | some w => rw [hw] at hn; simp at hn)
    cases hss : Spec.Comp.steps cfg sl D onMesh n i0 with
    | error f => rw [hss] at h3; exact h3.err _
    | ok is =>
      rw [hss] at h3
      obtain ⟨st2, e2, hr2, hlen, last', hl2, hle2, hnil, hne⟩ := h3
      rw [e2]
      simp only
      obtain ⟨sps', last'', e3, hf⟩ := CppLoop.finish_ok hr2 hl2
      refine ⟨_, e3, hlen, hc1, ?_⟩
      -- whether the last state had been written
      have hwl : st.file.isSome = true →
          (last' = (lastOf i0 is).count ↔ wroteLast cfg.partEvery init.isSome i0 is = true) := by
        intro hsome
        by_cases hi : is = []
        · subst hi
          rw [hnil rfl]
          simp only [lastOf, List.getLast?_nil, Option.getD_none, wroteLast, List.isEmpty_nil, if_true]
          rw [hc1]
          exact hiff1 hsome
        · rw [hne hi, wroteLast]
          simp [hi]
      refine ⟨hr2.count, hr2.time, hr2.side, ?_, hr2.phi, ?_, ?_, ?_, ?_, ?_, ?_⟩
      · exact hf.imp (fun sp p k => by
          obtain ⟨bb, k⟩ := k
          exact ⟨k.name, k.holds.stores⟩)
      · intro hw
        simp [hw]
      · intro hw
        have hwl := hwl hw
        obtain ⟨w, hw⟩ := Option.isSome_iff_exists.1 hw
        refine ⟨_, by simp only [hw, Option.map_some]; rfl, ?_⟩
        change (if init.isSome = true then [groupI i0] else []) ++
          (dueStates cfg.partEvery is).map groupI ++
            (if last' = (lastOf i0 is).count then [] else [groupI (lastOf i0 is)]) =
          (filedStates cfg.partEvery init.isSome i0 is).map groupI
        unfold filedStates
        rw [List.map_append, List.map_append]
        congr 1
        · congr 1
          split <;> rfl
        · by_cases hwl2 : wroteLast cfg.partEvery init.isSome i0 is = true
          · rw [if_pos (hwl.2 hwl2), if_pos hwl2]; rfl
          · rw [if_neg (fun hcc => hwl2 (hwl.1 hcc)), if_neg hwl2]; rfl
      · intro hh
        simp [hl2.hist, hh]
      · intro hh
        obtain ⟨hist, hh⟩ := Option.isSome_iff_exists.1 hh
        refine ⟨_, by simp only [hl2.hist, hh, Option.map_some]; rfl, ?_⟩
        simp [rowI]
      · rw [show ({ st2 with sps := sps', file := _ } : CppLoop.State K V α σ φ).phiLog = _ from hl2.phi]
        rfl
      · exact hl2.cell

/-- **C109 (the compiled program and lists).** A whole run with compiled movers and containers -
initialization, `n` steps, end - does what the simulation on plain lists of particles does.  If the
latter goes through the states `i0`, `is`, the program ends normally; the containers hold the final
populations; the particle file has one group for the initial state (if there are initial particles),
one for each due step and one for the end (if it is not there already), each with the particles of that
state; the histories get the first state and each state whose step number `histories_step_skip` divides;
the potential and cell-density files have the due entries.  If it raises, so does the program. -/
theorem C109_run {cfg : Cfg K V α σ φ} {onMesh : α → Bool} {d : Nat → Nat} {sl D C : Nat}
    (h2 : 2 ≤ sl) (hc : GoodEvery cfg) (hm : GoodMesh cfg onMesh d D C) {skip : Int} (hskip : skip ≠ 0)
    (n : Nat) (init : Option (List (String × List α))) {st : CppLoop.State K V α σ φ}
    {i : Ideal K V α σ} {b : List K} (h : CppLoop.Fresh sl D C skip st i b)
    (hnone : st.file = none → cfg.partEvery = none) :
    match Spec.Comp.run cfg sl D onMesh init b n i with
    | .ok (i0, is) => is.length = n ∧ ∃ st', CppLoop.run cfg init n st = .ok st' ∧
        CppOutcome Eq cfg d C skip init.isSome b st st' i0 is
    | .error (.raises e) => CppLoop.run cfg init n st = .error e
    | .error _ => True := by
  have key := cppRun_agree h2 hc hm hskip n init h hnone
  cases hr : Spec.Comp.run cfg sl D onMesh init b n i with
  | error f =>
    rw [hr] at key
    cases f with
    | raises e => exact key
    | offMesh => trivial
    | huge => trivial
  | ok r =>
    obtain ⟨i0, is⟩ := r
    rw [hr] at key
    obtain ⟨st', e, hlen, _, hf⟩ := key
    exact ⟨hlen, st', e, hf⟩

end

/-! ### The compiled and the Python simulation -/

/-- Two simulations, with side states related by `R`, whose movers and sources do the same and whose
fields, intervals and solvers are the same. -/
structure TwinCfg {σ₁ σ₂ : Type} (R : σ₁ → σ₂ → Prop) (c1 : Cfg K V α σ₁ φ) (c2 : Cfg K V α σ₂ φ) :
    Prop where
  dt : c1.dt = c2.dt
  move : ∀ sn f c t st1 st2 i o ic x, R st1 st2 →
    Sim R (c1.move sn f c t st1 i o ic x) (c2.move sn f c t st2 i o ic x)
  sources : List.Forall₂ (fun s1 s2 => s1.species = s2.species ∧ s1.interval = s2.interval ∧
    ∀ c t st1 st2, R st1 st2 → Sim R (s1.make c t st1) (s2.make c t st2)) c1.sources c2.sources
  A : c1.A = c2.A
  SD : c1.SD = c2.SD
  bc : c1.bc = c2.bc
  solve : c1.solve = c2.solve
  factor : c1.factor = c2.factor
  fieldOf : c1.fieldOf = c2.fieldOf
  partEvery : c1.partEvery = c2.partEvery
  cellEvery : c1.cellEvery = c2.cellEvery
  fieldEvery : c1.fieldEvery = c2.fieldEvery

/-- The same state, up to the side state. -/
structure SameIdeal {σ₁ σ₂ : Type} (R : σ₁ → σ₂ → Prop) (i1 : Ideal K V α σ₁) (i2 : Ideal K V α σ₂) :
    Prop where
  count : i1.count = i2.count
  time : i1.time = i2.time
  pops : i1.pops = i2.pops
  side : R i1.side i2.side
  phi : i1.phi = i2.phi

/-- No species has `2^32` particles or more. -/
def SmallIdeal (i : Ideal K V α σ) : Prop := ∀ p ∈ i.pops, p.st.items.length < 4294967296

namespace CppLoop
variable {σ₁ σ₂ : Type} {R : σ₁ → σ₂ → Prop}

/-- Both succeed with related results, or both fail, or the Python one has lost all particles of a
species in one step, or there are too many particles for the compiled one. -/
def Both {A B : Type} (P : A → B → Prop) : Except Spec.Comp.Fault A → Except Spec.Fault B → Prop
  | .ok a, .ok b => P a b
  | .error .huge, _ => True
  | _, .error .allLost => True
  | .error _, .error _ => True
  | _, _ => False

theorem Both.lost {A B : Type} {P : A → B → Prop} (r : Except Spec.Comp.Fault A) :
    Both P r (.error .allLost : Except Spec.Fault B) := by
  rcases r with (_ | _ | _) | _ <;> trivial

theorem Both.errs {A B : Type} {P : A → B → Prop} (f : Spec.Comp.Fault) (g : Spec.Fault) :
    Both P (.error f : Except Spec.Comp.Fault A) (.error g : Except Spec.Fault B) := by
  rcases f with _ | _ | _ <;> rcases g with _ | _ | _ <;> trivial

/-- Errors of `Both` are passed on. -/
theorem Both.cases {A B : Type} {P : A → B → Prop} {r : Except Spec.Comp.Fault A}
    {q : Except Spec.Fault B} (h : Both P r q) :
    (∃ a b, r = .ok a ∧ q = .ok b ∧ P a b) ∨ (∃ f g, r = .error f ∧ q = .error g) ∨
    (q = .error .allLost) ∨ (r = .error .huge) := by
  rcases r with f | a <;> rcases q with g | b
  · exact .inr (.inl ⟨_, _, rfl, rfl⟩)
  · rcases f with _ | _ | _
    · exact absurd h id
    · exact absurd h id
    · exact .inr (.inr (.inr rfl))
  · rcases g with _ | _ | _
    · exact absurd h id
    · exact .inr (.inr (.inl rfl))
    · exact absurd h id
  · exact .inl ⟨a, b, rfl, rfl, h⟩

theorem appendAll_both (sl : Nat) (st : LState α) (xs : List α) :
    Both Eq (Spec.Comp.appendAll true sl st xs) (st.appendAll sl xs) := by
  induction xs generalizing st with
  | nil => rfl
  | cons x xs ih =>
    simp only [Spec.Comp.appendAll, LState.appendAll]
    by_cases hcc : st.stale = true ∧ st.items ≠ [] ∧ st.items.length % sl = 0
    · simp only [true_and]
      rw [if_pos hcc, if_pos hcc]; trivial
    · simp only [true_and]
      rw [if_neg hcc, if_neg hcc]; exact ih _

theorem appendAll_fresh (sl : Nat) (st : LState α) (hst : st.stale = false) (xs : List α) :
    Spec.Comp.appendAll false sl st xs = .ok ⟨st.items ++ xs, false⟩ ∧
      st.appendAll sl xs = .ok ⟨st.items ++ xs, false⟩ := by
  induction xs generalizing st with
  | nil => obtain ⟨_, _⟩ := st; simp only at hst; subst hst; simp [Spec.Comp.appendAll, LState.appendAll]
  | cons x xs ih =>
    simp only [Spec.Comp.appendAll, LState.appendAll]
    rw [if_neg (by simp), if_neg (by simp [hst])]
    have := ih ⟨st.items ++ [x], st.stale⟩ hst
    simpa using this

theorem appendTo_both (sl : Nat) (name : String) (xs : List α) (ps : List (Pop K V α)) :
    Both Eq (Spec.Comp.appendTo true sl name xs ps) (Spec.appendTo sl name xs ps) := by
  induction ps with
  | nil => trivial
  | cons p ps ih =>
    simp only [Spec.Comp.appendTo, Spec.appendTo]
    split
    · rcases (appendAll_both sl p.st xs).cases with ⟨a, b, e1, e2, rfl⟩ | ⟨f, g, e1, e2⟩ | e | e
      · rw [e1, e2]; rfl
      · rw [e1, e2]; exact .errs _ _
      · rw [e]; exact .lost _
      · rw [e]; trivial
    · rcases ih.cases with ⟨a, b, e1, e2, rfl⟩ | ⟨f, g, e1, e2⟩ | e | e
      · rw [e1, e2]; rfl
      · rw [e1, e2]; exact .errs _ _
      · rw [e]; exact .lost _
      · rw [e]; trivial

theorem appendTo_fresh (sl : Nat) (name : String) (xs : List α) (ps : List (Pop K V α))
    (h : ∀ p ∈ ps, p.st.stale = false) :
    (∃ ps', Spec.Comp.appendTo false sl name xs ps = .ok ps' ∧ Spec.appendTo sl name xs ps = .ok ps' ∧
      ∀ p ∈ ps', p.st.stale = false) ∨
    (Spec.Comp.appendTo false sl name xs ps = .error (.raises .key) ∧
      Spec.appendTo sl name xs ps = .error (.raises .key)) := by
  induction ps with
  | nil => exact .inr ⟨rfl, rfl⟩
  | cons p ps ih =>
    simp only [Spec.Comp.appendTo, Spec.appendTo]
    have hp := h p (by simp)
    have hps : ∀ q ∈ ps, q.st.stale = false := fun q hq => h q (by simp [hq])
    split
    · obtain ⟨e1, e2⟩ := appendAll_fresh sl p.st hp xs
      rw [e1, e2]
      refine .inl ⟨_, rfl, rfl, ?_⟩
      intro q hq
      rcases List.mem_cons.1 hq with rfl | hq
      · rfl
      · exact hps q hq
    · rcases ih hps with ⟨ps', e1, e2, hs⟩ | ⟨e1, e2⟩
      · rw [e1, e2]
        refine .inl ⟨_, rfl, rfl, ?_⟩
        intro q hq
        rcases List.mem_cons.1 hq with rfl | hq
        · exact hp
        · exact hs q hq
      · rw [e1, e2]; exact .inr ⟨rfl, rfl⟩

theorem appendGroups_fresh (sl : Nat) (gs : List (String × List α)) (ps : List (Pop K V α))
    (h : ∀ p ∈ ps, p.st.stale = false) :
    (∃ ps', Spec.Comp.appendGroups sl gs ps = .ok ps' ∧ Spec.appendGroups sl gs ps = .ok ps') ∨
    (Spec.Comp.appendGroups sl gs ps = .error (.raises .key) ∧
      Spec.appendGroups sl gs ps = .error (.raises .key)) := by
  induction gs generalizing ps with
  | nil => exact .inl ⟨ps, rfl, rfl⟩
  | cons g gs ih =>
    simp only [Spec.Comp.appendGroups, Spec.appendGroups]
    rcases appendTo_fresh sl g.1 g.2 ps h with ⟨ps', e1, e2, hs⟩ | ⟨e1, e2⟩
    · rw [e1, e2]; exact ih ps' hs
    · rw [e1, e2]; exact .inr ⟨rfl, rfl⟩

theorem createAll_both (sl : Nat) (count : Int) (time : K) {s1 : List (Src K α σ₁)}
    {s2 : List (Src K α σ₂)}
    (hs : List.Forall₂ (fun s1 s2 => s1.species = s2.species ∧ s1.interval = s2.interval ∧
      ∀ c t st1 st2, R st1 st2 → Sim R (s1.make c t st1) (s2.make c t st2)) s1 s2)
    (ps : List (Pop K V α)) (st1 : σ₁) (st2 : σ₂) (hR : R st1 st2) :
    Both (fun a b => a.1 = b.1 ∧ R a.2 b.2) (Spec.Comp.createAll sl count time s1 ps st1)
      (Spec.createAll sl count time s2 ps st2) := by
  induction hs generalizing ps st1 st2 with
  | nil => exact ⟨rfl, hR⟩
  | @cons a b as bs hab _ ih =>
    obtain ⟨hsp, hint, hmk⟩ := hab
    simp only [Spec.Comp.createAll, Spec.createAll, hsp, hint]
    split
    · exact .errs _ _
    · split
      · rcases (hmk count time st1 st2 hR).cases with ⟨e1, e2, h1, h2⟩ | ⟨s1, s2, r, h1, h2, hr⟩
        · rw [h1, h2]; exact .errs _ _
        · rw [h1, h2]
          simp only
          rcases (appendTo_both sl b.species r ps).cases with
            ⟨x, y, k1, k2, rfl⟩ | ⟨f, g, k1, k2⟩ | k | k
          · rw [k1, k2]; exact ih _ _ _ hr
          · rw [k1, k2]; exact .errs _ _
          · rw [k]; exact .lost _
          · rw [k]; trivial
      · exact ih _ _ _ hR

theorem lastFlag_sim {adv1 : Adv σ₁ α} {adv2 : Adv σ₂ α}
    (h : ∀ st1 st2 i o ic x, R st1 st2 → Sim R (adv1 st1 i o ic x) (adv2 st2 i o ic x))
    (xs : List α) (st1 : σ₁) (st2 : σ₂) (i o : Nat) (hR : R st1 st2) :
    Spec.lastFlag adv1 st1 i o xs = Spec.lastFlag adv2 st2 i o xs := by
  induction xs generalizing st1 st2 i o with
  | nil => rfl
  | cons x xs ih =>
    simp only [Spec.lastFlag]
    rcases (h st1 st2 i o (decide (o ≠ i)) x hR).cases with ⟨e1, e2, h1, h2⟩ | ⟨s1, s2, r, h1, h2, hr⟩
    · rw [h1, h2]
    · rw [h1, h2]
      simp only
      rw [ih _ _ _ _ hr]

variable [Field K]

theorem movePop_both [DecidableEq K] (sl : Nat) {mv1 : String → Adv σ₁ α} {mv2 : String → Adv σ₂ α}
    (h : ∀ sn st1 st2 i o ic x, R st1 st2 → Sim R (mv1 sn st1 i o ic x) (mv2 sn st2 i o ic x))
    (p : Pop K V α) (st1 : σ₁) (st2 : σ₂) (hR : R st1 st2) :
    Both (fun a b => a.1 = b.1 ∧ R a.2 b.2) (Spec.Comp.movePop sl mv1 p st1)
      (Spec.movePop sl mv2 p st2) := by
  unfold Spec.Comp.movePop Spec.movePop
  split
  · exact ⟨rfl, hR⟩
  · split
    · trivial
    · rcases (pass_sim (h p.name) p.st.items st1 st2 0 0 hR).cases with
        ⟨e1, e2, h1, h2⟩ | ⟨s1, s2, r, h1, h2, hr⟩
      · rw [h1, h2]; exact .errs _ _
      · rw [h1, h2]
        cases r with
        | nil => exact .lost _
        | cons y ys =>
          refine ⟨?_, hr⟩
          simp only
          rw [lastFlag_sim (h p.name) p.st.items st1 st2 0 0 hR]
          simp

theorem moveAll_both [DecidableEq K] (sl : Nat) {mv1 : String → Adv σ₁ α} {mv2 : String → Adv σ₂ α}
    (h : ∀ sn st1 st2 i o ic x, R st1 st2 → Sim R (mv1 sn st1 i o ic x) (mv2 sn st2 i o ic x))
    (ps : List (Pop K V α)) (st1 : σ₁) (st2 : σ₂) (hR : R st1 st2) :
    Both (fun a b => a.1 = b.1 ∧ R a.2 b.2) (Spec.Comp.moveAll sl mv1 ps st1)
      (Spec.moveAll sl mv2 ps st2) := by
  induction ps generalizing st1 st2 with
  | nil => exact ⟨rfl, hR⟩
  | cons p ps ih =>
    simp only [Spec.Comp.moveAll, Spec.moveAll]
    rcases (movePop_both sl h p st1 st2 hR).cases with
      ⟨⟨a1, a2⟩, ⟨b1, b2⟩, k1, k2, hab, hr⟩ | ⟨f, g, k1, k2⟩ | k | k
    · rw [k1, k2]
      simp only at hab hr ⊢
      subst hab
      rcases (ih a2 b2 hr).cases with
        ⟨⟨c1, c2⟩, ⟨d1, d2⟩, m1, m2, hcd, hr'⟩ | ⟨f, g, m1, m2⟩ | m | m
      · rw [m1, m2]
        simp only at hcd hr' ⊢
        subst hcd
        exact ⟨rfl, hr'⟩
      · rw [m1, m2]; exact .errs _ _
      · rw [m]; exact .lost _
      · rw [m]; trivial
    · rw [k1, k2]; exact .errs _ _
    · rw [k]; exact .lost _
    · rw [k]; trivial

theorem potential_twin {c1 : Cfg K V α σ₁ φ} {c2 : Cfg K V α σ₂ φ} (ht : TwinCfg R c1 c2) (D : Nat)
    (ps : List (Pop K V α)) : Spec.potential c1 D ps = Spec.potential c2 D ps := by
  unfold Spec.potential Spec.chargeAt
  rw [ht.A, ht.SD, ht.bc, ht.solve, ht.factor]

theorem settle_both {c1 : Cfg K V α σ₁ φ} {c2 : Cfg K V α σ₂ φ} (ht : TwinCfg R c1 c2) (D : Nat)
    (onMesh : α → Bool) (count : Int) (time : K) (ps : List (Pop K V α)) {st1 : σ₁} {st2 : σ₂}
    (hR : R st1 st2) : Both (SameIdeal R) (Spec.Comp.settle c1 D onMesh count time ps st1)
      (Spec.settle c2 D onMesh count time ps st2) := by
  unfold Spec.Comp.settle Spec.settle
  split
  · exact ⟨rfl, rfl, rfl, hR, potential_twin ht D ps⟩
  · exact .errs _ _

theorem step_both [DecidableEq K] {c1 : Cfg K V α σ₁ φ} {c2 : Cfg K V α σ₂ φ} (ht : TwinCfg R c1 c2)
    (sl D : Nat) (onMesh : α → Bool) {i1 : Ideal K V α σ₁} {i2 : Ideal K V α σ₂}
    (hi : SameIdeal R i1 i2) :
    Both (SameIdeal R) (Spec.Comp.step c1 sl D onMesh i1) (i2.step c2 sl D onMesh) := by
  unfold Spec.Comp.step Ideal.step
  rw [hi.count, hi.time, hi.pops, hi.phi, ht.dt, ht.fieldOf]
  dsimp only
  rcases (moveAll_both sl (fun sn => ht.move sn (c2.fieldOf i2.phi) (i2.count + 1) (i2.time + c2.dt))
      i2.pops i1.side i2.side hi.side).cases with
    ⟨⟨a1, a2⟩, ⟨b1, b2⟩, k1, k2, hab, hr⟩ | ⟨f, g, k1, k2⟩ | k | k
  · rw [k1, k2]
    simp only at hab hr ⊢
    subst hab
    rcases (createAll_both sl (i2.count + 1) (i2.time + c2.dt) ht.sources a1 a2 b2 hr).cases with
      ⟨⟨x1, x2⟩, ⟨d1, d2⟩, m1, m2, hcd, hr'⟩ | ⟨f, g, m1, m2⟩ | m | m
    · rw [m1, m2]
      simp only at hcd hr' ⊢
      subst hcd
      exact settle_both ht D onMesh _ _ _ hr'
    · rw [m1, m2]; exact .errs _ _
    · rw [m]; exact .lost _
    · rw [m]; trivial
  · rw [k1, k2]; exact .errs _ _
  · rw [k]; exact .lost _
  · rw [k]; trivial

/-! Only too many particles are too many. -/

theorem moveAll_huge [DecidableEq K] {sl : Nat} {mv : String → Adv σ₁ α} {ps : List (Pop K V α)}
    {side : σ₁} (h : Spec.Comp.moveAll sl mv ps side = .error .huge) :
    ∃ p ∈ ps, 4294967296 ≤ p.st.items.length := by
  induction ps generalizing side with
  | nil => cases h
  | cons p ps ih =>
    simp only [Spec.Comp.moveAll] at h
    cases hm : Spec.Comp.movePop sl mv p side with
    | error f =>
      rw [hm] at h
      simp only [Except.error.injEq] at h
      subst h
      unfold Spec.Comp.movePop at hm
      split at hm
      · cases hm
      · split at hm
        · rename_i hl
          exact ⟨p, by simp, hl⟩
        · split at hm <;> cases hm
    | ok r =>
      rw [hm] at h
      simp only at h
      cases hms : Spec.Comp.moveAll sl mv ps r.2 with
      | error f =>
        rw [hms] at h
        simp only [Except.error.injEq] at h
        subst h
        obtain ⟨q, hq, hl⟩ := ih hms
        exact ⟨q, by simp [hq], hl⟩
      | ok r' => rw [hms] at h; cases h

theorem appendAll_not_huge {array : Bool} {sl : Nat} {st : LState α} {xs : List α} :
    Spec.Comp.appendAll array sl st xs ≠ .error .huge := by
  induction xs generalizing st with
  | nil => simp [Spec.Comp.appendAll]
  | cons x xs ih =>
    simp only [Spec.Comp.appendAll]
    split
    · simp
    · exact ih

theorem appendTo_not_huge {array : Bool} {sl : Nat} {name : String} {xs : List α}
    {ps : List (Pop K V α)} : Spec.Comp.appendTo array sl name xs ps ≠ .error .huge := by
  induction ps with
  | nil => simp [Spec.Comp.appendTo]
  | cons p ps ih =>
    simp only [Spec.Comp.appendTo]
    split
    · cases ha : Spec.Comp.appendAll array sl p.st xs with
      | error f => intro hcc; cases hcc; exact appendAll_not_huge ha
      | ok st => simp
    · cases ha : Spec.Comp.appendTo array sl name xs ps with
      | error f => intro hcc; cases hcc; exact ih ha
      | ok st => simp

theorem createAll_not_huge {sl : Nat} {count : Int} {time : K} {ss : List (Src K α σ₁)}
    {ps : List (Pop K V α)} {side : σ₁} :
    Spec.Comp.createAll sl count time ss ps side ≠ .error .huge := by
  induction ss generalizing ps side with
  | nil => simp [Spec.Comp.createAll]
  | cons s ss ih =>
    simp only [Spec.Comp.createAll]
    split
    · simp
    · split
      · cases s.make count time side with
        | error e => simp
        | ok r =>
          simp only
          cases ha : Spec.Comp.appendTo true sl s.species r.2 ps with
          | error f => intro hcc; cases hcc; exact appendTo_not_huge ha
          | ok ps' => exact ih
      · exact ih

theorem step_huge [DecidableEq K] {c : Cfg K V α σ₁ φ} {sl D : Nat} {onMesh : α → Bool}
    {i : Ideal K V α σ₁} (h : Spec.Comp.step c sl D onMesh i = .error .huge) : ¬ SmallIdeal i := by
  unfold Spec.Comp.step at h
  dsimp only at h
  split at h
  · rename_i f hm
    simp only [Except.error.injEq] at h
    subst h
    obtain ⟨p, hp, hl⟩ := moveAll_huge hm
    intro hs
    have := hs p hp
    omega
  · split at h
    · rename_i f hm
      simp only [Except.error.injEq] at h
      subst h
      exact absurd hm createAll_not_huge
    · unfold Spec.Comp.settle at h
      split at h <;> cases h

theorem steps_forth [DecidableEq K] {c1 : Cfg K V α σ₁ φ} {c2 : Cfg K V α σ₂ φ}
    (ht : TwinCfg R c1 c2) (sl D : Nat) (onMesh : α → Bool) (n : Nat) {i1 : Ideal K V α σ₁}
    {i2 : Ideal K V α σ₂} (hi : SameIdeal R i1 i2) {is2 : List (Ideal K V α σ₂)}
    (h : Ideal.steps c2 sl D onMesh n i2 = .ok is2) (hsm : ∀ j ∈ i2 :: is2, SmallIdeal j) :
    ∃ is1, Spec.Comp.steps c1 sl D onMesh n i1 = .ok is1 ∧ List.Forall₂ (SameIdeal R) is1 is2 := by
  induction n generalizing i1 i2 is2 with
  | zero => cases h; exact ⟨[], rfl, .nil⟩
  | succ n ih =>
    simp only [Ideal.steps] at h
    simp only [Spec.Comp.steps]
    rcases (step_both ht sl D onMesh hi).cases with ⟨a, b, k1, k2, hab⟩ | ⟨f, g, k1, k2⟩ | k | k
    · rw [k2] at h
      simp only at h
      cases hs : Ideal.steps c2 sl D onMesh n b with
      | error f => rw [hs] at h; cases h
      | ok is =>
        rw [hs] at h
        cases h
        obtain ⟨is1, e, hf⟩ := ih hab hs (fun j hj => hsm j (List.mem_cons_of_mem _ hj))
        rw [k1]
        simp only [e]
        exact ⟨_, rfl, .cons hab hf⟩
    · rw [k2] at h; cases h
    · rw [k] at h; cases h
    · refine absurd ?_ (step_huge k)
      intro p hp
      rw [hi.pops] at hp
      exact hsm i2 (by simp) p hp

theorem steps_back [DecidableEq K] {c1 : Cfg K V α σ₁ φ} {c2 : Cfg K V α σ₂ φ}
    (ht : TwinCfg R c1 c2) (sl D : Nat) (onMesh : α → Bool) (n : Nat) {i1 : Ideal K V α σ₁}
    {i2 : Ideal K V α σ₂} (hi : SameIdeal R i1 i2) {is1 : List (Ideal K V α σ₁)}
    (h : Spec.Comp.steps c1 sl D onMesh n i1 = .ok is1) :
    (∃ is2, Ideal.steps c2 sl D onMesh n i2 = .ok is2 ∧ List.Forall₂ (SameIdeal R) is1 is2) ∨
    Ideal.steps c2 sl D onMesh n i2 = .error .allLost := by
  induction n generalizing i1 i2 is1 with
  | zero => cases h; exact .inl ⟨[], rfl, .nil⟩
  | succ n ih =>
    simp only [Spec.Comp.steps] at h
    simp only [Ideal.steps]
    rcases (step_both ht sl D onMesh hi).cases with ⟨a, b, k1, k2, hab⟩ | ⟨f, g, k1, k2⟩ | k | k
    · rw [k1] at h
      simp only at h
      cases hs : Spec.Comp.steps c1 sl D onMesh n a with
      | error f => rw [hs] at h; cases h
      | ok is =>
        rw [hs] at h
        cases h
        rw [k2]
        rcases ih hab hs with ⟨is2, e, hf⟩ | e
        · simp only [e]; exact .inl ⟨_, rfl, .cons hab hf⟩
        · simp only [e]; exact .inr trivial
    · rw [k1] at h; cases h
    · rw [k]; exact .inr rfl
    · rw [k] at h; cases h

theorem start_both {c1 : Cfg K V α σ₁ φ} {c2 : Cfg K V α σ₂ φ}
    (ht : TwinCfg R c1 c2) (sl D : Nat) (onMesh : α → Bool)
    (init : Option (List (String × List α))) (b : List K) {i1 : Ideal K V α σ₁}
    {i2 : Ideal K V α σ₂} (hi : SameIdeal R i1 i2) (hf : ∀ p ∈ i2.pops, p.st.stale = false) :
    (∃ j1 j2, Spec.Comp.start c1 sl D onMesh init b i1 = .ok j1 ∧
      i2.start c2 sl D onMesh init b = .ok j2 ∧ SameIdeal R j1 j2) ∨
    (∃ f g, Spec.Comp.start c1 sl D onMesh init b i1 = .error f ∧
      i2.start c2 sl D onMesh init b = .error g) := by
  unfold Spec.Comp.start Ideal.start
  cases init with
  | none =>
    refine .inl ⟨_, _, rfl, rfl, ⟨hi.count, hi.time, hi.pops, hi.side, ?_⟩⟩
    simp only [ht.solve]
  | some gs =>
    simp only [hi.pops]
    rcases appendGroups_fresh sl gs i2.pops hf with ⟨ps', e1, e2⟩ | ⟨e1, e2⟩
    · rw [e1, e2]
      simp only [hi.count, hi.time]
      unfold Spec.Comp.settle Spec.settle
      split
      · exact .inl ⟨_, _, rfl, rfl, ⟨rfl, rfl, rfl, hi.side, potential_twin ht D ps'⟩⟩
      · exact .inr ⟨_, _, rfl, rfl⟩
    · rw [e1, e2]; exact .inr ⟨_, _, rfl, rfl⟩

end CppLoop

section
variable {σ₁ σ₂ : Type} {R : σ₁ → σ₂ → Prop} [Field K]

theorem sameIdeal_last [DecidableEq K] {i0 : Ideal K V α σ₁} {j0 : Ideal K V α σ₂} (h0 : SameIdeal R i0 j0)
    {is : List (Ideal K V α σ₁)} {js : List (Ideal K V α σ₂)}
    (h : List.Forall₂ (SameIdeal R) is js) : SameIdeal R (lastOf i0 is) (lastOf j0 js) := by
  induction h generalizing i0 j0 with
  | nil => exact h0
  | cons hab _ ih => rw [CppLoop.lastOf_more, CppLoop.lastOf_more]; exact ih hab

theorem sameIdeal_due (every : Option Int) {is : List (Ideal K V α σ₁)} {js : List (Ideal K V α σ₂)}
    (h : List.Forall₂ (SameIdeal R) is js) :
    List.Forall₂ (SameIdeal R) (dueStates every is) (dueStates every js) := by
  induction h with
  | nil => exact .nil
  | @cons a b as bs hab _ ih =>
    unfold dueStates at ih ⊢
    rw [List.filter_cons, List.filter_cons, hab.count]
    split
    · exact .cons hab ih
    · exact ih

theorem sameIdeal_map {β : Type} {f : Ideal K V α σ₁ → β} {g : Ideal K V α σ₂ → β}
    (hfg : ∀ i j, SameIdeal R i j → f i = g j) {is : List (Ideal K V α σ₁)}
    {js : List (Ideal K V α σ₂)} (h : List.Forall₂ (SameIdeal R) is js) : is.map f = js.map g := by
  induction h with
  | nil => rfl
  | cons hab _ ih => rw [List.map_cons, List.map_cons, hfg _ _ hab, ih]

theorem sameIdeal_filed [DecidableEq K] (every : Option Int) (init : Bool) {i0 : Ideal K V α σ₁}
    {j0 : Ideal K V α σ₂} (h0 : SameIdeal R i0 j0) {is : List (Ideal K V α σ₁)}
    {js : List (Ideal K V α σ₂)} (h : List.Forall₂ (SameIdeal R) is js) :
    List.Forall₂ (SameIdeal R) (filedStates every init i0 is) (filedStates every init j0 js) := by
  unfold filedStates
  have hl := sameIdeal_last h0 h
  have hw : wroteLast every init i0 is = wroteLast every init j0 js := by
    unfold wroteLast
    rw [hl.count]
    cases h <;> rfl
  rw [hw]
  refine List.rel_append (List.rel_append ?_ (sameIdeal_due every h)) ?_
  · split
    · exact .cons h0 .nil
    · exact .nil
  · split
    · exact .nil
    · exact .cons hl .nil

theorem CppOutcome.twin [DecidableEq K] {cfg : Cfg K V α σ₁ φ} {d : Nat → Nat}
    {C : Nat} {skip : Int} {init : Bool} {b : List K} {st0 st : CppLoop.State K V α σ₁ φ}
    {i0 : Ideal K V α σ₁} {is : List (Ideal K V α σ₁)}
    (h : CppOutcome Eq cfg d C skip init b st0 st i0 is) {j0 : Ideal K V α σ₂}
    {js : List (Ideal K V α σ₂)} (h0 : SameIdeal R i0 j0)
    (hs : List.Forall₂ (SameIdeal R) is js) : CppOutcome R cfg d C skip init b st0 st j0 js := by
  have hl := sameIdeal_last h0 hs
  refine ⟨h.count.trans hl.count, h.time.trans hl.time, ?_, ?_, h.phi.trans hl.phi, h.noFile, ?_,
    h.noHist, ?_, ?_, ?_⟩
  · rw [h.side]; exact hl.side
  · rw [← hl.pops]; exact h.particles
  · intro hf
    obtain ⟨f, e, hg⟩ := h.file hf
    refine ⟨f, e, hg.trans (sameIdeal_map (fun i j k => ?_) (sameIdeal_filed _ _ h0 hs))⟩
    rw [k.count, k.time, Ideal.filed, Ideal.filed, k.pops]
  · intro hf
    obtain ⟨f, e, hg⟩ := h.hist hf
    refine ⟨f, e, hg.trans (sameIdeal_map (fun i j k => ?_) (.cons h0 (sameIdeal_due _ hs)))⟩
    rw [k.count, k.time, Ideal.massed, Ideal.massed, k.pops]
  · rw [h.phiLog, h0.time, h0.phi]
    congr 1
    exact sameIdeal_map (fun i j k => by rw [k.time, k.phi]) (sameIdeal_due _ hs)
  · have e : (dueStates cfg.cellEvery is).flatMap (fun i => i.pops.map (fun p => (i.time, p))) =
        (dueStates cfg.cellEvery js).flatMap (fun i => i.pops.map (fun p => (i.time, p))) := by
      rw [List.flatMap_def, List.flatMap_def]
      congr 1
      exact sameIdeal_map (fun i j k => by rw [k.time, k.pops]) (sameIdeal_due _ hs)
    rw [← e]
    exact h.cellLog

/-- **C109 (the compiled simulation follows the Python one).** Let the movers, sources and solver of the
two simulations do the same.  If the simulation on lists with the Python movers goes through the states
`i0`, `is`, none with `2^32` particles of a species, then the compiled program ends normally, and its
containers, files and histories hold what belongs to these states. -/
theorem C109_follows_python [DecidableEq K] {c1 : Cfg K V α σ₁ φ} {c2 : Cfg K V α σ₂ φ}
    (ht : TwinCfg R c1 c2) {onMesh : α → Bool} {d : Nat → Nat} {sl D C : Nat} (h2 : 2 ≤ sl)
    (hc : GoodEvery c1) (hm : GoodMesh c1 onMesh d D C) {skip : Int} (hskip : skip ≠ 0) (n : Nat)
    (init : Option (List (String × List α))) {st : CppLoop.State K V α σ₁ φ} {i1 : Ideal K V α σ₁}
    {b : List K} (h : CppLoop.Fresh sl D C skip st i1 b) (hnone : st.file = none → c1.partEvery = none)
    {i2 : Ideal K V α σ₂} (hi : SameIdeal R i1 i2) {i0 : Ideal K V α σ₂} {is : List (Ideal K V α σ₂)}
    (hp : Ideal.run c2 sl D onMesh init b n i2 = .ok (i0, is)) (hsm : ∀ j ∈ i0 :: is, SmallIdeal j) :
    ∃ st', CppLoop.run c1 init n st = .ok st' ∧
      CppOutcome R c1 d C skip init.isSome b st st' i0 is := by
  have hf : ∀ p ∈ i2.pops, p.st.stale = false := by
    intro p hp
    rw [← hi.pops] at hp
    rw [h.empty p hp]
  have key := C109_run h2 hc hm hskip n init h hnone
  unfold Ideal.run at hp
  unfold Spec.Comp.run at key
  rcases CppLoop.start_both ht sl D onMesh init b hi hf with ⟨j1, j2, e1, e2, hj⟩ | ⟨f, g, e1, e2⟩
  · rw [e2] at hp
    rw [e1] at key
    simp only at hp key
    cases hs : Ideal.steps c2 sl D onMesh n j2 with
    | error f => rw [hs] at hp; cases hp
    | ok js =>
      rw [hs] at hp
      cases hp
      obtain ⟨is1, e3, hff⟩ := CppLoop.steps_forth ht sl D onMesh n hj hs hsm
      rw [e3] at key
      obtain ⟨-, st', e, ho⟩ := key
      exact ⟨st', e, ho.twin hj hff⟩
  · rw [e2] at hp; cases hp

/-- **C109 (and conversely).** If the compiled simulation on lists goes through the states `j0`, `js`,
then so does the Python one - unless it has lost all particles of a species in one step. -/
theorem C109_python_follows [DecidableEq K] {c1 : Cfg K V α σ₁ φ} {c2 : Cfg K V α σ₂ φ}
    (ht : TwinCfg R c1 c2) {onMesh : α → Bool} {sl D : Nat} (n : Nat)
    (init : Option (List (String × List α))) {i1 : Ideal K V α σ₁} {b : List K}
    (hf : ∀ p ∈ i1.pops, p.st = ⟨[], false⟩)
    {i2 : Ideal K V α σ₂} (hi : SameIdeal R i1 i2) {j0 : Ideal K V α σ₁} {js : List (Ideal K V α σ₁)}
    (hp : Spec.Comp.run c1 sl D onMesh init b n i1 = .ok (j0, js)) :
    (∃ i0 is, Ideal.run c2 sl D onMesh init b n i2 = .ok (i0, is) ∧ SameIdeal R j0 i0 ∧
      List.Forall₂ (SameIdeal R) js is) ∨
    Ideal.run c2 sl D onMesh init b n i2 = .error .allLost := by
  have hf : ∀ p ∈ i2.pops, p.st.stale = false := by
    intro p hp
    rw [← hi.pops] at hp
    rw [hf p hp]
  unfold Spec.Comp.run at hp
  unfold Ideal.run
  rcases CppLoop.start_both ht sl D onMesh init b hi hf with ⟨k1, k2, e1, e2, hj⟩ | ⟨f, g, e1, e2⟩
  · rw [e1] at hp
    rw [e2]
    simp only at hp ⊢
    cases hs : Spec.Comp.steps c1 sl D onMesh n k1 with
    | error f => rw [hs] at hp; cases hp
    | ok ks =>
      rw [hs] at hp
      cases hp
      rcases CppLoop.steps_back ht sl D onMesh n hj hs with ⟨is2, e3, hff⟩ | e3
      · rw [e3]; exact .inl ⟨_, _, rfl, hj, hff⟩
      · rw [e3]; exact .inr rfl
  · rw [e1] at hp; cases hp

/-- **C109 (the two programs).** Both programs are started with fresh containers on the same mesh, and
their movers, sources and solvers do the same.  If the simulation on lists goes through states without
an exception, without losing all particles of a species in one step and without `2^32` particles of a
species, both programs end normally, at the same step and time, with the same particles in the same
order in every species and the same potential, and what they have written about the potential is the
same. -/
theorem C109_programs_agree [LinearOrder K] {c1 : Cfg K V α σ₁ φ} {c2 : Cfg K V α σ₂ φ}
    (ht : TwinCfg R c1 c2) {onMesh : α → Bool} {d d' : Nat → Nat} {sl D C C' : Nat} (h2 : 2 ≤ sl)
    (hc1 : GoodEvery c1) (hm1 : GoodMesh c1 onMesh d D C) {skip : Int} (hskip : skip ≠ 0) (n : Nat)
    (init : Option (List (String × List α))) {st1 : CppLoop.State K V α σ₁ φ} {i1 : Ideal K V α σ₁}
    {b : List K} (h1 : CppLoop.Fresh sl D C skip st1 i1 b)
    (hnone1 : st1.file = none → c1.partEvery = none)
    (hc2 : GoodCfg c2) (hm2 : GoodMesh c2 onMesh d' D C') {z : Species.HRow K}
    {st2 : TimeLoop.State K V α σ₂ φ} {i2 : Ideal K V α σ₂}
    (h3 : TimeLoop.Fresh sl D C' n z st2 i2 b) (hnone2 : st2.writer = none → c2.partEvery = none)
    (hi : SameIdeal R i1 i2) {i0 : Ideal K V α σ₂} {is : List (Ideal K V α σ₂)}
    (hp : Ideal.run c2 sl D onMesh init b n i2 = .ok (i0, is)) (hsm : ∀ j ∈ i0 :: is, SmallIdeal j) :
    ∃ st1' st2', CppLoop.run c1 init n st1 = .ok st1' ∧ TimeLoop.run c2 init n st2 = .ok st2' ∧
      st1'.count = st2'.count ∧ st1'.time = st2'.time ∧ R st1'.side st2'.side ∧
      List.Forall₂ (fun sp1 sp2 => sp1.name = sp2.name ∧ ∃ xs, CStores sp1.sap xs ∧
        Spec.Stores sp2.sap xs) st1'.sps st2'.sps ∧
      st1'.solver.phi = st2'.solver.phi ∧ st1'.phiLog = st2'.phiLog ∧
      (st1.file.isSome = true → st2.writer.isSome = true → ∃ f w, st1'.file = some f ∧
        st2'.writer = some w ∧ List.Forall₂ (GroupOf c2.attrs)
          (f.groups.map (fun e => (⟨e.1, e.2.1, e.2.2⟩ : Output.Call (List (V × List α)) K))) w.file.groups) := by
  obtain ⟨st1', e1, o1⟩ := C109_follows_python ht h2 hc1 hm1 hskip n init h1 hnone1 hi hp hsm
  have k := C68_run hc2 hm2 n init h3 hnone2
  rw [hp] at k
  obtain ⟨-, st2', e2, o2⟩ := k
  refine ⟨st1', st2', e1, e2, o1.count.trans o2.count.symm, o1.time.trans o2.time.symm, ?_, ?_,
    o1.phi.trans o2.phi.symm, ?_, ?_⟩
  · rw [o2.side]; exact o1.side
  · have := o1.particles
    have h' := o2.particles.flip
    clear hp
    revert this h'
    generalize st1'.sps = a
    generalize st2'.sps = c
    generalize (lastOf i0 is).pops = p
    intro ha hc
    induction ha generalizing c with
    | nil => cases hc; exact .nil
    | cons hab _ ih =>
      cases hc with
      | cons hbc hcs => exact .cons ⟨hab.1.trans hbc.1.symm, _, hab.2, hbc.2⟩ (ih _ hcs)
  · rw [o1.phiLog, o2.phiLog, ht.solve, ht.fieldEvery]
  · intro hf hw
    obtain ⟨f, e3, hg⟩ := o1.file hf
    obtain ⟨w, e4, hg2⟩ := o2.file hw
    refine ⟨f, w, e3, e4, ?_⟩
    rw [hg, List.map_map, ht.partEvery]
    exact hg2

end

/-! ### A compiled simulation that does not fail -/

namespace CppLoop

/-- The particles are as they should be, there are less than `2^32 - S` of each species, and the species
are among `ns`. -/
def Fine (ns : List String) (P : α → Prop) (S : Nat) (ps : List (Pop K V α)) : Prop :=
  ∀ p ∈ ps, (∀ q ∈ p.st.items, P q) ∧ p.st.items.length + S < 4294967296 ∧ p.name ∈ ns

theorem pass_fine {P : α → Prop} {adv : Adv σ α}
    (h : ∀ st i o ic q, P q → ∃ st' q' k, adv st i o ic q = .ok (st', q', k) ∧ (k = true → P q'))
    (xs : List α) (hx : ∀ x ∈ xs, P x) (st : σ) (i o : Nat) :
    ∃ st' ys, Spec.pass adv st i o xs = .ok (st', ys) ∧ (∀ y ∈ ys, P y) ∧ ys.length ≤ xs.length := by
  induction xs generalizing st i o with
  | nil => exact ⟨st, [], rfl, by simp, le_refl _⟩
  | cons x xs ih =>
    have hxs : ∀ y ∈ xs, P y := fun y hy => hx y (by simp [hy])
    obtain ⟨st', q', k, e, hk⟩ := h st i o (decide (o ≠ i)) x (hx x (by simp))
    simp only [Spec.pass, e]
    cases k with
    | true =>
      obtain ⟨st'', ys, e2, hy, hl⟩ := ih hxs st' (i + 1) (o + 1)
      simp only [e2]
      refine ⟨_, _, rfl, ?_, by simpa using hl⟩
      intro y hy'
      rcases List.mem_cons.1 hy' with rfl | hy'
      · exact hk rfl
      · exact hy y hy'
    | false =>
      obtain ⟨st'', ys, e2, hy, hl⟩ := ih hxs st' (i + 1) o
      simp only [e2]
      exact ⟨_, _, rfl, hy, by simp only [List.length_cons]; omega⟩

theorem moveAll_fine [Field K] [DecidableEq K] {P : α → Prop} {sl : Nat} {mv : String → Adv σ α} {ns : List String}
    (h : ∀ sn ∈ ns, ∀ st i o ic q, P q → ∃ st' q' k, mv sn st i o ic q = .ok (st', q', k) ∧ (k = true → P q'))
    {ps : List (Pop K V α)} (hp : Fine ns P 0 ps) (side : σ) :
    ∃ ps' side', Spec.Comp.moveAll sl mv ps side = .ok (ps', side') ∧ Fine ns P 0 ps' := by
  induction ps generalizing side with
  | nil => exact ⟨[], side, rfl, hp⟩
  | cons p ps ih =>
    have h1 := hp p (by simp)
    have h2 : Fine ns P 0 ps := fun q hq => hp q (by simp [hq])
    have : ∃ p' side', Spec.Comp.movePop sl mv p side = .ok (p', side') ∧
        (∀ q ∈ p'.st.items, P q) ∧ p'.st.items.length + 0 < 4294967296 ∧ p'.name ∈ ns := by
      unfold Spec.Comp.movePop
      split
      · exact ⟨_, _, rfl, h1⟩
      · rw [if_neg (by have := h1.2.1; omega)]
        obtain ⟨st', ys, e, hy, hl⟩ := pass_fine (h p.name h1.2.2) p.st.items h1.1 side 0 0
        rw [e]
        exact ⟨_, _, rfl, hy, by have := h1.2.1; simp only; omega, h1.2.2⟩
    obtain ⟨p', side', e1, hp'⟩ := this
    obtain ⟨ps', side'', e2, hps'⟩ := ih h2 side'
    simp only [Spec.Comp.moveAll, e1, e2]
    refine ⟨_, _, rfl, ?_⟩
    intro q hq
    rcases List.mem_cons.1 hq with rfl | hq
    · exact hp'
    · exact hps' q hq

theorem settle_fine [Field K] {ns : List String} {P : α → Prop} {cfg : Cfg K V α σ φ} {D : Nat} {onMesh : α → Bool}
    (hon : ∀ q, P q → onMesh q = true) {count : Int} {time : K} {ps : List (Pop K V α)}
    (hp : Fine ns P 0 ps) (side : σ) :
    ∃ i, Spec.Comp.settle cfg D onMesh count time ps side = .ok i ∧ Fine ns P 0 i.pops := by
  unfold Spec.Comp.settle
  rw [if_pos]
  · refine ⟨_, rfl, ?_⟩
    intro q hq
    obtain ⟨p, hpp, rfl⟩ := List.mem_map.1 hq
    exact hp p hpp
  · simp only [List.all_eq_true]
    exact fun p hpp q hq => hon q ((hp p hpp).1 q hq)

theorem steps_fine [Field K] [DecidableEq K] {ns : List String} {P : α → Prop} {cfg : Cfg K V α σ φ} {sl D : Nat}
    {onMesh : α → Bool} (hon : ∀ q, P q → onMesh q = true) (hs : cfg.sources = [])
    (h : ∀ sn ∈ ns, ∀ f c t st i o ic q, P q → ∃ st' q' k, cfg.move sn f c t st i o ic q = .ok (st', q', k) ∧
      (k = true → P q')) (n : Nat) {i : Ideal K V α σ} (hi : Fine ns P 0 i.pops) :
    ∃ is, Spec.Comp.steps cfg sl D onMesh n i = .ok is ∧ ∀ j ∈ is, Fine ns P 0 j.pops := by
  induction n generalizing i with
  | zero => exact ⟨[], rfl, by simp⟩
  | succ n ih =>
    have : ∃ i', Spec.Comp.step cfg sl D onMesh i = .ok i' ∧ Fine ns P 0 i'.pops := by
      unfold Spec.Comp.step
      dsimp only
      obtain ⟨ps', side', e, hp⟩ := moveAll_fine (sl := sl)
        (fun sn hsn => h sn hsn (cfg.fieldOf i.phi) (i.count + 1) (i.time + cfg.dt)) hi i.side
      rw [e]
      simp only [hs, Spec.Comp.createAll]
      exact settle_fine hon hp side'
    obtain ⟨i', e, hi'⟩ := this
    obtain ⟨is, e2, his⟩ := ih hi'
    simp only [Spec.Comp.steps, e, e2]
    refine ⟨_, rfl, ?_⟩
    intro j hj
    rcases List.mem_cons.1 hj with rfl | hj
    · exact hi'
    · exact his j hj

theorem appendAll_list (sl : Nat) (st : LState α) (xs : List α) :
    ∃ st', Spec.Comp.appendAll false sl st xs = .ok st' ∧ st'.items = st.items ++ xs := by
  induction xs generalizing st with
  | nil => exact ⟨st, rfl, by simp⟩
  | cons x xs ih =>
    simp only [Spec.Comp.appendAll]
    rw [if_neg (by simp)]
    obtain ⟨st', e, he⟩ := ih ⟨st.items ++ [x], st.stale⟩
    exact ⟨st', e, by simpa using he⟩

theorem appendTo_fine {ns : List String} {P : α → Prop} (sl : Nat) (name : String) {xs : List α} (hx : ∀ x ∈ xs, P x)
    {ps : List (Pop K V α)} {S : Nat} (hp : Fine ns P (xs.length + S) ps)
    (hn : name ∈ ps.map (·.name)) :
    ∃ ps', Spec.Comp.appendTo false sl name xs ps = .ok ps' ∧ Fine ns P S ps' ∧
      ps'.map (·.name) = ps.map (·.name) := by
  induction ps with
  | nil => simp at hn
  | cons p ps ih =>
    have h1 := hp p (by simp)
    have h2 : Fine ns P (xs.length + S) ps := fun q hq => hp q (by simp [hq])
    simp only [Spec.Comp.appendTo]
    by_cases hpn : p.name = name
    · rw [if_pos hpn]
      obtain ⟨st', e, he⟩ := appendAll_list sl p.st xs
      rw [e]
      refine ⟨_, rfl, ?_, rfl⟩
      intro q hq
      rcases List.mem_cons.1 hq with rfl | hq
      · simp only [he]
        refine ⟨?_, by rw [List.length_append]; omega, h1.2.2⟩
        intro y hy
        rcases List.mem_append.1 hy with hy | hy
        · exact h1.1 y hy
        · exact hx y hy
      · have := h2 q hq
        exact ⟨this.1, by omega, this.2.2⟩
    · rw [if_neg hpn]
      obtain ⟨ps', e, hf, hnm⟩ := ih h2 (by
        rcases List.mem_cons.1 hn with hn | hn
        · exact absurd hn.symm hpn
        · exact hn)
      rw [e]
      refine ⟨_, rfl, ?_, by simp [hnm]⟩
      intro q hq
      rcases List.mem_cons.1 hq with rfl | hq
      · exact ⟨h1.1, by omega, h1.2.2⟩
      · exact hf q hq

theorem appendGroups_fine {ns : List String} {P : α → Prop} (sl : Nat) {gs : List (String × List α)}
    (hg : ∀ a ∈ gs, ∀ x ∈ a.2, P x) {ps : List (Pop K V α)}
    (hp : Fine ns P (gs.map (·.2.length)).sum ps) (hn : ∀ a ∈ gs, a.1 ∈ ps.map (·.name)) :
    ∃ ps', Spec.Comp.appendGroups sl gs ps = .ok ps' ∧ Fine ns P 0 ps' := by
  induction gs generalizing ps with
  | nil => exact ⟨ps, rfl, hp⟩
  | cons g gs ih =>
    rw [List.map_cons, List.sum_cons] at hp
    obtain ⟨ps', e, hf, hnm⟩ := appendTo_fine sl g.1 (hg g (by simp)) hp (hn g (by simp))
    simp only [Spec.Comp.appendGroups, e]
    exact ih (fun a ha => hg a (by simp [ha])) hf
      (fun a ha => by rw [hnm]; exact hn a (by simp [ha]))

end CppLoop

/-- **C109 (no failure).** A compiled program without sources, whose mover never fails on particles with
`P` of the species that exist and keeps `P`, and whose initial particles (less than `2^32`) have `P` and belong to existing
species, ends normally - also if species lose all their particles. -/
theorem C109_ends_normally [Field K] [DecidableEq K] {cfg : Cfg K V α σ φ} {onMesh : α → Bool}
    {d : Nat → Nat} {sl D C : Nat} (h2 : 2 ≤ sl) (hc : GoodEvery cfg) (hm : GoodMesh cfg onMesh d D C)
    {skip : Int} (hskip : skip ≠ 0) (n : Nat) {P : α → Prop} (hon : ∀ q, P q → onMesh q = true)
    (hs : cfg.sources = []) {init : Option (List (String × List α))} {st : CppLoop.State K V α σ φ} {i : Ideal K V α σ}
    (hmove : ∀ sn ∈ i.pops.map (·.name), ∀ f c t st i o ic q, P q →
      ∃ st' q' k, cfg.move sn f c t st i o ic q = .ok (st', q', k) ∧ (k = true → P q'))
    {b : List K} (h : CppLoop.Fresh sl D C skip st i b) (hnone : st.file = none → cfg.partEvery = none)
    (hinit : ∀ gs, init = some gs → (gs.map (·.2.length)).sum < 4294967296 ∧
      ∀ a ∈ gs, a.1 ∈ i.pops.map (·.name) ∧ ∀ q ∈ a.2, P q) :
    ∃ st' i0 is, CppLoop.run cfg init n st = .ok st' ∧
      Spec.Comp.run cfg sl D onMesh init b n i = .ok (i0, is) ∧
      CppOutcome Eq cfg d C skip init.isSome b st st' i0 is ∧
      (∀ j ∈ i0 :: is, ∀ p ∈ j.pops, ∀ q ∈ p.st.items, P q) := by
  have key := C109_run h2 hc hm hskip n init h hnone
  have hstart : ∃ i0, Spec.Comp.start cfg sl D onMesh init b i = .ok i0 ∧
      CppLoop.Fine (i.pops.map (·.name)) P 0 i0.pops := by
    unfold Spec.Comp.start
    cases init with
    | none =>
      refine ⟨_, rfl, ?_⟩
      intro p hp
      simp only [h.empty p hp]
      exact ⟨by simp, by simp, List.mem_map.2 ⟨p, hp, rfl⟩⟩
    | some gs =>
      obtain ⟨hlen, hgs⟩ := hinit gs rfl
      obtain ⟨ps', e, hf⟩ := CppLoop.appendGroups_fine (ns := i.pops.map (·.name)) (P := P) sl (fun a ha => (hgs a ha).2)
        (ps := i.pops) (by
          intro p hp
          simp only [h.empty p hp]
          exact ⟨by simp, by simpa using hlen, List.mem_map.2 ⟨p, hp, rfl⟩⟩) (fun a ha => (hgs a ha).1)
      simp only [e]
      exact CppLoop.settle_fine hon hf i.side
  obtain ⟨i0, e0, hf0⟩ := hstart
  obtain ⟨is, e1, hfs⟩ := CppLoop.steps_fine (sl := sl) (D := D) hon hs hmove n hf0
  have hrun : Spec.Comp.run cfg sl D onMesh init b n i = .ok (i0, is) := by
    unfold Spec.Comp.run
    simp only [e0, e1]
  rw [hrun] at key
  obtain ⟨-, st', e, ho⟩ := key
  refine ⟨st', i0, is, e, hrun, ho, ?_⟩
  intro j hj p hp
  rcases List.mem_cons.1 hj with rfl | hj
  · exact (hf0 p hp).1
  · exact (hfs j hj p hp).1

/-! ### The movers -/

section
variable {g p : Nat} {ρ τ : Type} [Field K] [LinearOrder K] [IsStrictOrderedRing K]

/-- **C109 (the compiled movers).** The compiled and the Python mover of charged particles, on the same
mesh and with boundary functions that do the same, meet the condition on the movers. -/
theorem C109_movers {cm : CppMesh K} {M : Mesh K g} (hM : cm.Twin M)
    (h : g ≤ p) {L : Layout K p} (hL : L.Right)
    {bcC bcP : String → Int → τ → BCall K g p ρ → Except Err (τ × Part K p ρ)}
    (hbc : ∀ sn v st c, SameOk (bcC sn v st c) (bcP sn v st c)) (m : Nat) (dt : K) (qom : String → K)
    (E : String → φ → Part K p ρ → Option (Vec K p)) (sn : String) (f : φ) (c : Int) (t : K)
    (st1 : (τ × Vec K p) × Scratch K) (st2 : τ × Vec K p) (i o : Int) (ic : Bool) (x : Part K p ρ)
    (hst : st1.1 = st2) :
    Sim (fun a b => a.1 = b) (CppLoop.cppMove h L cm bcC m dt qom E sn f c t st1 i o ic x)
      (pyMove h M bcP m dt qom E sn f c t st2 i o ic x) := by
  unfold CppLoop.cppMove pyMove plainAdv
  rcases (moveCharged_sim hM h hL (hbc sn) m t dt (qom sn * dt) (E sn f) st1 st2 x hst).cases with
    ⟨e1, e2, h1, h2⟩ | ⟨s1, s2, r, h1, h2, hr⟩
  · rw [h1, h2]; exact .err _ _
  · rw [h1, h2]
    exact Sim.ok (R := fun (a : (τ × Vec K p) × Scratch K) (b : τ × Vec K p) => a.1 = b) hr _

/-- **C109 on a one-dimensional mesh** with absorbing ends, at most as many cells as the crossing
limit, and no sources: the compiled program ends normally, whatever the fields, charges, masses, the
time step, the number of steps and the initial particles are, and in every state every particle is in
the cell its index names. -/
theorem C109_line_runs {x : Nat → K} {N : Nat} {marker : Int → Int} {h : 1 ≤ p}
    (hx : ∀ i, i < N → x i < x (i + 1)) (hM : (lineMesh x N marker).Conforming)
    {L : Layout K p} (hL : L.Right)
    {bc : String → Int → τ → BCall K 1 p ρ → Except Err (τ × Part K p ρ)} {maxCross : Nat}
    (hN : N ≤ maxCross) {qom : String → K} {E : String → φ → Part K p ρ → Option (Vec K p)}
    {cfg : Cfg K V (Part K p ρ) ((τ × Vec K p) × Scratch K) φ}
    (hmove : cfg.move = CppLoop.cppMove h L (lineCpp x N marker) bc maxCross cfg.dt qom E)
    (hcell : ∀ sn, KeepsCell (bc sn)) (hbc : ∀ sn, GoodBC h (lineMesh x N marker) True (bc sn))
    (ha : ∀ sn, Absorbs (lineMesh x N marker) (bc sn)) (hsrc : cfg.sources = [])
    {onMesh : Part K p ρ → Bool} (hon : ∀ q, Present h (lineMesh x N marker) q → onMesh q = true)
    {d : Nat → Nat} {sl D C : Nat} (h2 : 2 ≤ sl)
    (hc : GoodEvery cfg) (hm : GoodMesh cfg onMesh d D C) {skip : Int} (hskip : skip ≠ 0) (n : Nat)
    {init : Option (List (String × List (Part K p ρ)))}
    {st : CppLoop.State K V (Part K p ρ) ((τ × Vec K p) × Scratch K) φ}
    {i : Ideal K V (Part K p ρ) ((τ × Vec K p) × Scratch K)} {b : List K}
    (hf : CppLoop.Fresh sl D C skip st i b) (hnone : st.file = none → cfg.partEvery = none)
    (hinit : ∀ gs, init = some gs → (gs.map (·.2.length)).sum < 4294967296 ∧
      ∀ a ∈ gs, a.1 ∈ i.pops.map (·.name) ∧ ∀ q ∈ a.2, Present h (lineMesh x N marker) q) :
    ∃ st' i0 is, CppLoop.run cfg init n st = .ok st' ∧
      Spec.Comp.run cfg sl D onMesh init b n i = .ok (i0, is) ∧
      CppOutcome Eq cfg d C skip init.isSome b st st' i0 is ∧
      (∀ j ∈ i0 :: is, ∀ p ∈ j.pops, ∀ q ∈ p.st.items, Present h (lineMesh x N marker) q) := by
  refine C109_ends_normally h2 hc hm hskip n hon hsrc ?_ hf hnone hinit
  intro sn _ f c t st i o ic q hq
  have hk := pyMove_keeps (h := h) (M := lineMesh x N marker) (bc := bc) (maxCross := maxCross)
    (dt := cfg.dt) (qom := qom) (E := E) (sn := sn) (hcell sn) (Q := fun _ => False) (f := f) (c := c)
    (t := t) (fun st q e hq he => by
      obtain ⟨r, hr⟩ := C26_line_no_error hM (v := .charged) rfl
        (by simpa [Variant.charged] using hbc sn) (ha sn) hN t cfg.dt (qom sn * cfg.dt) (E sn f) st hq.1
      rw [hr] at he; cases he)
  have hsim := C109_movers (C66_interval_mesh (marker := marker) hx) h hL (bcC := bc) (bcP := bc)
    (fun _ _ _ _ _ => Iff.rfl) maxCross cfg.dt qom E sn f c t st st.1 i o ic q rfl
  obtain ⟨k1, k2⟩ := hk st.1 i o ic q hq
  rw [hmove]
  cases hp : pyMove h (lineMesh x N marker) bc maxCross cfg.dt qom E sn f c t st.1 i o ic q with
  | error e => exact (k2 e hp).elim
  | ok r =>
    obtain ⟨st2, q', k⟩ := r
    obtain ⟨st1, e1, -⟩ := hsim.2 _ _ hp
    refine ⟨st1, q', k, e1, ?_⟩
    rintro rfl
    exact k1 st2 q' hp

end

/-! ### The hypotheses are met -/

section Demo

/-- The example simulation `simCfg` with the compiled mover; the sources do not touch the scratch array. -/
def cppSimCfg (ss : List (Src ℚ SimPart (Unit × Vec ℚ 1))) :
    Cfg ℚ ℚ SimPart ((Unit × Vec ℚ 1) × Scratch ℚ) (List ℚ) where
  dt := 1 / 2
  move := CppLoop.cppMove (le_refl 1) layoutX demoLineCpp (fun _ => sinkBC) 3 (1 / 2) (fun _ => -1) simField
  sources := ss.map (fun s => ⟨s.name, s.species, s.interval, fun c t side =>
    match s.make c t side.1 with
    | .error e => .error e
    | .ok (side', xs) => .ok ((side', side.2), xs)⟩)
  attrs := (simCfg ss).attrs
  junk := 0
  partEvery := some 2
  cellEvery := some 3
  fieldEvery := some 1
  quantities := [.count]
  vel := []
  A := (simCfg ss).A
  SD := (simCfg ss).SD
  SC := (simCfg ss).SC
  vol := fun _ => 1
  ncell := 3
  bc := fun v => v
  solve := fun v => v.map (· / 100)
  factor := none
  fieldOf := fun v => v

def cppSimState : CppLoop.State ℚ ℚ SimPart ((Unit × Vec ℚ 1) × Scratch ℚ) (List ℚ) where
  count := 0
  time := 0
  sps := [⟨"e", CSAP.new 2 (demoPart 0 0 0 false), -1, 1, 1, [0, 0, 0, 0], [0, 0, 0]⟩]
  side := (((), ![0]), fun _ => 99)
  field := []
  solver := ⟨[0, 0, 0, 0], [0, 0, 0, 0], [0, 0, 0, 0]⟩
  file := some ⟨-1, []⟩
  hist := some ⟨2, []⟩
  phiLog := []
  cellLog := []

def cppSimIdeal : Ideal ℚ ℚ SimPart ((Unit × Vec ℚ 1) × Scratch ℚ) :=
  ⟨0, 0, [⟨"e", -1, 1, 1, ⟨[], false⟩⟩], (((), ![0]), fun _ => 99), []⟩

theorem cppSim_twin (ss : List (Src ℚ SimPart (Unit × Vec ℚ 1))) :
    TwinCfg (fun (a : (Unit × Vec ℚ 1) × Scratch ℚ) b => a.1 = b) (cppSimCfg ss) (simCfg ss) := by
  refine ⟨rfl, ?_, ?_, rfl, rfl, rfl, rfl, rfl, rfl, rfl, rfl, rfl⟩
  · intro sn f c t st1 st2 i o ic x hR
    have key := C109_movers (K := ℚ) (φ := List ℚ) (g := 1) (p := 1) (ρ := Nat) (τ := Unit) demoLineCpp_twin
      (le_refl 1) (L := layoutX) C66_layouts.1 (bcC := fun _ => sinkBC) (bcP := fun _ => sinkBC)
      (fun _ _ _ _ _ => Iff.rfl) 3 (1 / 2) (fun _ => -1) simField sn f c t st1 st2 i o ic x hR
    exact key
  · simp only [cppSimCfg, simCfg, List.forall₂_map_left_iff, List.forall₂_same]
    intro s _
    refine ⟨trivial, trivial, ?_⟩
    rintro c t ⟨st1, sc⟩ _ rfl
    dsimp only
    cases s.make c t st1 with
    | error e => exact .err _ _
    | ok r => exact Sim.ok (R := fun (a : (Unit × Vec ℚ 1) × Scratch ℚ) b => a.1 = b) rfl _

theorem cppSim_good (ss : List (Src ℚ SimPart (Unit × Vec ℚ 1))) : GoodEvery (cppSimCfg ss) :=
  ⟨by simp [cppSimCfg], by simp [cppSimCfg], by simp [cppSimCfg]⟩

theorem cppSim_mesh (ss : List (Src ℚ SimPart (Unit × Vec ℚ 1))) :
    GoodMesh (cppSimCfg ss) onSim (fun k => k) 4 3 := by
  obtain ⟨h1, h2, h3⟩ := sim_mesh ss
  exact ⟨h1, h2, h3⟩

theorem cppSim_fresh : CppLoop.Fresh 2 4 3 2 cppSimState cppSimIdeal [0, 0, 0, 0] := by
  refine ⟨rfl, rfl, rfl, rfl, rfl, ?_, ?_, ?_, ?_, rfl, rfl⟩
  · have h := CppProgram.start_rel (sl := 2) (by decide) (demoPart 0 0 0 false) [true]
    cases h with
    | cons h _ => exact .cons ⟨rfl, rfl, rfl, rfl, h, rfl, rfl⟩ .nil
  · intro p hp
    simp only [cppSimIdeal, List.mem_singleton] at hp
    rw [hp]
  · exact .inr ⟨-1, rfl, by decide⟩
  · exact .inr rfl

theorem sim_small (j : Ideal ℚ ℚ SimPart (Unit × Vec ℚ 1))
    (h : j.pops.all (fun p => decide (p.st.items.length < 4294967296)) = true) : SmallIdeal j := by
  intro p hp
  have := List.all_eq_true.1 h p hp
  simpa using this

-- C109: the two programs, with the source, end with the same particles.
example : ∃ st1' st2', CppLoop.run (cppSimCfg [simSource]) (some simInit) 3 cppSimState = .ok st1' ∧
    TimeLoop.run (simCfg [simSource]) (some simInit) 3 (simState 3) = .ok st2' ∧
    List.Forall₂ (fun sp1 sp2 => sp1.name = sp2.name ∧ ∃ xs, CStores sp1.sap xs ∧
        Spec.Stores sp2.sap xs) st1'.sps st2'.sps ∧ st1'.phiLog = st2'.phiLog := by
  obtain ⟨⟨i0, is⟩, hr⟩ := sim_ok [simSource] 3 (by decide +kernel)
  have hsm : ((simRun [simSource] 3).toOption.map (fun r => (r.1 :: r.2).all (fun j => j.pops.all
    (fun p => decide (p.st.items.length < 4294967296))))) = some true := by decide +kernel
  rw [hr] at hsm
  simp only [Except.toOption, Option.map_some, Option.some.injEq, List.all_eq_true] at hsm
  obtain ⟨st1', st2', e1, e2, -, -, -, hp, -, hl, -⟩ := C109_programs_agree (cppSim_twin [simSource])
    (le_refl 2) (cppSim_good _) (cppSim_mesh _) (by decide) 3 (some simInit) cppSim_fresh
    (by simp [cppSimState]) (sim_good _) (sim_mesh _) (sim_fresh 3) (fun h => by cases h)
    ⟨rfl, rfl, rfl, rfl, rfl⟩ hr (fun j hj => sim_small j (List.all_eq_true.2 (hsm j hj)))
  exact ⟨st1', st2', e1, e2, hp, hl⟩

/-- What is seen of a run: the particles in the containers (cell, crossings) and what has been written
to the potential file. -/
def cppSeen (r : Except Err (CppLoop.State ℚ ℚ SimPart ((Unit × Vec ℚ 1) × Scratch ℚ) (List ℚ))) :
    Option (List (List (Int × Nat)) × List (List ℚ)) :=
  r.toOption.map (fun s => (s.sps.map (fun sp => ((CppLoop.look sp.sap).toOption.map (fun a =>
    a.2.map (fun q => (q.cell, q.crossings)))).getD []), s.phiLog.map (·.2)))

-- The compiled program, in numbers; compare `simView`.
example : (cppSeen (CppLoop.run (cppSimCfg [simSource]) (some simInit) 3 cppSimState)).map (·.1) =
    some [[(1, 0), (0, 0)]] := by decide +kernel

/-- The same in any field. -/
def cppSimIn (E : String → List ℚ → SimPart → Option (Vec ℚ 1)) :
    Cfg ℚ ℚ SimPart ((Unit × Vec ℚ 1) × Scratch ℚ) (List ℚ) :=
  { cppSimCfg [] with
    move := CppLoop.cppMove (le_refl 1) layoutX demoLineCpp (fun _ => sinkBC) 3 (1 / 2) (fun _ => -1) E }

-- C109 on the interval, for any number of steps and any field.
example (n : Nat) (E : String → List ℚ → SimPart → Option (Vec ℚ 1)) :
    ∃ st', CppLoop.run (cppSimIn E) (some simInit) n cppSimState = .ok st' := by
  obtain ⟨st', i0, is, e, -⟩ := C109_line_runs (x := fun i => (i : ℚ)) (N := 3)
    (marker := fun k => if k = 0 then 1 else if k = 3 then 2 else 0) (fun i _ => by push_cast; linarith)
    demoLine_conforming (L := layoutX) C66_layouts.1 (bc := fun _ => sinkBC) (maxCross := 3) (le_refl 3)
    (qom := fun _ => -1) (E := E) (cfg := cppSimIn E) rfl
    (fun _ => sinkBC_keepsCell) (fun _ => sinkBC_good') (fun _ => sinkBC_absorbs) rfl
    (onMesh := onSim) (fun q => onSim_of) (le_refl 2)
    ⟨by simp [cppSimIn, cppSimCfg], by simp [cppSimIn, cppSimCfg], by simp [cppSimIn, cppSimCfg]⟩
    (by obtain ⟨h1, h2, h3⟩ := sim_mesh []; exact ⟨h1, h2, h3⟩) (skip := 2) (by decide) n (init := some simInit)
    (st := cppSimState) (i := cppSimIdeal) ⟨rfl, rfl, rfl, rfl, rfl, cppSim_fresh.sps, cppSim_fresh.empty,
      cppSim_fresh.file, cppSim_fresh.hist, rfl, rfl⟩ (by simp [cppSimState]) (by
      intro gs hgs
      cases hgs
      refine ⟨by simp [simInit], fun a ha => ⟨?_, fun q hq => sim_init _ rfl a ha q hq⟩⟩
      simp only [simInit, List.mem_singleton] at ha
      subst ha
      decide)
  exact ⟨st', e⟩

/-- One electron, which leaves in the first step. -/
def lostInit : List (String × List SimPart) := [("e", [demoPart (5 / 2) 9 2 false])]

/-- C109 fails if a species loses all its particles in one step: both programs end normally with no
particles, but the potentials the Python program writes from then on are those of the record left over,
the compiled program writes those of the empty mesh. -/
theorem C109_false_all_lost :
    (cppSeen (CppLoop.run (cppSimCfg []) (some lostInit) 2 cppSimState)) =
      some ([[]], [[0, 0, 0, 0], [0, 0, -7 / 200, -7 / 200], [0, 0, 0, 0], [0, 0, 0, 0]]) ∧
    (TimeLoop.run (simCfg []) (some lostInit) 2 (simState 2)).toOption.map
      (fun s => (s.sps.map (fun sp => sp.sap.getNumberOfItems), s.phiLog.map (·.2))) =
      some ([0], [[0, 0, 0, 0], [0, 0, -7 / 200, -7 / 200], [7 / 20, -49 / 100, 0, 0],
        [7 / 20, -49 / 100, 0, 0]]) := by decide +kernel

end Demo

end Dt
