import Verif.Spec.Tuning
import Verif.Props.TimeLoop

/-!
# The settings for storage and output do not influence the simulation (C118)
-/

namespace Dt
open TimeLoop
open Spec (LState Stores Pop Ideal Fault lastOf SamePhysics SamePop SameState)
set_option linter.unusedSectionVars false
variable {K V α σ φ : Type} [Field K] [LinearOrder K]

/-- Both end well with related results, or both fail alike; unless one of them fails with an
AssertionError. -/
def Alike {β γ : Type} (R : β → γ → Prop) (r : Except Fault β) (r' : Except Fault γ) : Prop :=
  r = .error (.raises .assertion) ∨ r' = .error (.raises .assertion) ∨
    (∃ b c, r = .ok b ∧ r' = .ok c ∧ R b c) ∨ ∃ f, r = .error f ∧ r' = .error f

theorem appendAll_cases (sl : Nat) (st : LState α) (xs : List α) :
    st.appendAll sl xs = .error (.raises .assertion) ∨ ∃ st', st.appendAll sl xs = .ok st' ∧ st'.items = st.items ++ xs := by
  induction xs generalizing st with
  | nil => exact .inr ⟨st, rfl, by simp⟩
  | cons x xs ih =>
    unfold LState.appendAll
    split
    · exact .inl rfl
    · rcases ih ⟨st.items ++ [x], st.stale⟩ with h | ⟨st', h, e⟩
      · exact .inl h
      · exact .inr ⟨st', h, by simpa using e⟩

theorem move_alike (sl sl' : Nat) (mv : String → Adv σ α) {ps ps' : List (Pop K V α)} (h : List.Forall₂ SamePop ps ps')
    (side : σ) :
    Alike (fun r r' => List.Forall₂ SamePop r.1 r'.1 ∧ r'.2 = r.2) (Spec.moveAll sl mv ps side) (Spec.moveAll sl' mv ps' side) := by
  induction h generalizing side with
  | nil => exact .inr (.inr (.inl ⟨_, _, rfl, rfl, .nil, rfl⟩))
  | @cons p p' ps ps' hp hps ih =>
    have one : Alike (fun r r' => SamePop r.1 r'.1 ∧ r'.2 = r.2) (Spec.movePop sl mv p side) (Spec.movePop sl' mv p' side) := by
      unfold Spec.movePop
      rw [hp.charge, hp.items, hp.name]
      by_cases h0 : p.charge = 0 ∨ p.st.items = []
      · rw [if_pos h0, if_pos h0]
        exact .inr (.inr (.inl ⟨_, _, rfl, rfl, hp, rfl⟩))
      · rw [if_neg h0, if_neg h0]
        split
        · exact .inr (.inr (.inr ⟨_, rfl, rfl⟩))
        · exact .inr (.inr (.inr ⟨_, rfl, rfl⟩))
        · exact .inr (.inr (.inl ⟨_, _, rfl, rfl, ⟨rfl, rfl, rfl⟩, rfl⟩))
    unfold Spec.moveAll
    rcases one with e | e | ⟨r, r', e, e', h1, h2⟩ | ⟨f, e, e'⟩
    · rw [e]; exact .inl rfl
    · rw [e]; exact .inr (.inl rfl)
    · obtain ⟨q, s⟩ := r
      obtain ⟨q', s'⟩ := r'
      cases h2
      rw [e, e']
      dsimp only
      rcases ih s with e1 | e1 | ⟨r, r', e1, e1', k1, k2⟩ | ⟨f, e1, e1'⟩
      · rw [e1]; exact .inl rfl
      · rw [e1]; exact .inr (.inl rfl)
      · rw [e1, e1']
        exact .inr (.inr (.inl ⟨_, _, rfl, rfl, .cons h1 k1, k2⟩))
      · rw [e1, e1']; exact .inr (.inr (.inr ⟨f, rfl, rfl⟩))
    · rw [e, e']; exact .inr (.inr (.inr ⟨f, rfl, rfl⟩))

theorem append_alike (sl sl' : Nat) (name : String) (xs : List α) {ps ps' : List (Pop K V α)} (h : List.Forall₂ SamePop ps ps') :
    Alike (List.Forall₂ SamePop) (Spec.appendTo sl name xs ps) (Spec.appendTo sl' name xs ps') := by
  induction h with
  | nil => exact .inr (.inr (.inr ⟨_, rfl, rfl⟩))
  | @cons p p' ps ps' hp hps ih =>
    unfold Spec.appendTo
    rw [hp.name]
    by_cases hn : p.name = name
    · rw [if_pos hn, if_pos hn]
      rcases appendAll_cases sl p.st xs with e | ⟨st, e, he⟩
      · rw [e]; exact .inl rfl
      · rcases appendAll_cases sl' p'.st xs with e' | ⟨st', e', he'⟩
        · rw [e']; exact .inr (.inl rfl)
        · rw [e, e']
          exact .inr (.inr (.inl ⟨_, _, rfl, rfl, .cons ⟨rfl, hp.charge, by rw [he, he', hp.items]⟩ hps⟩))
    · rw [if_neg hn, if_neg hn]
      rcases ih with e1 | e1 | ⟨r, r', e1, e1', k⟩ | ⟨f, e1, e1'⟩
      · rw [e1]; exact .inl rfl
      · rw [e1]; exact .inr (.inl rfl)
      · rw [e1, e1']; exact .inr (.inr (.inl ⟨_, _, rfl, rfl, .cons hp k⟩))
      · rw [e1, e1']; exact .inr (.inr (.inr ⟨f, rfl, rfl⟩))

theorem create_alike (sl sl' : Nat) (count : Int) (time : K) (ss : List (Src K α σ)) {ps ps' : List (Pop K V α)}
    (h : List.Forall₂ SamePop ps ps') (side : σ) :
    Alike (fun r r' => List.Forall₂ SamePop r.1 r'.1 ∧ r'.2 = r.2) (Spec.createAll sl count time ss ps side)
      (Spec.createAll sl' count time ss ps' side) := by
  induction ss generalizing ps ps' side with
  | nil => exact .inr (.inr (.inl ⟨_, _, rfl, rfl, h, rfl⟩))
  | cons s ss ih =>
    unfold Spec.createAll
    split
    · exact .inr (.inr (.inr ⟨_, rfl, rfl⟩))
    · split
      · cases s.make count time side with
        | error e => exact .inr (.inr (.inr ⟨_, rfl, rfl⟩))
        | ok r =>
          obtain ⟨side', xs⟩ := r
          dsimp only
          rcases append_alike sl sl' s.species xs h with e1 | e1 | ⟨r, r', e1, e1', k⟩ | ⟨f, e1, e1'⟩
          · rw [e1]; exact .inl rfl
          · rw [e1]; exact .inr (.inl rfl)
          · rw [e1, e1']; exact ih k side'
          · rw [e1, e1']; exact .inr (.inr (.inr ⟨f, rfl, rfl⟩))
      · exact ih h side

theorem groups_alike (sl sl' : Nat) (gs : List (String × List α)) {ps ps' : List (Pop K V α)} (h : List.Forall₂ SamePop ps ps') :
    Alike (List.Forall₂ SamePop) (Spec.appendGroups sl gs ps) (Spec.appendGroups sl' gs ps') := by
  induction gs generalizing ps ps' with
  | nil => exact .inr (.inr (.inl ⟨_, _, rfl, rfl, h⟩))
  | cons g gs ih =>
    unfold Spec.appendGroups
    rcases append_alike sl sl' g.1 g.2 h with e1 | e1 | ⟨r, r', e1, e1', k⟩ | ⟨f, e1, e1'⟩
    · rw [e1]; exact .inl rfl
    · rw [e1]; exact .inr (.inl rfl)
    · rw [e1, e1']; exact ih k
    · rw [e1, e1']; exact .inr (.inr (.inr ⟨f, rfl, rfl⟩))

theorem same_potential {cfg cfg' : Cfg K V α σ φ} (hp : SamePhysics cfg cfg') (D : Nat) {ps ps' : List (Pop K V α)}
    (h : List.Forall₂ SamePop ps ps') : Spec.potential cfg' D ps' = Spec.potential cfg D ps := by
  have hch : ∀ j, Spec.chargeAt cfg' ps' j = Spec.chargeAt cfg ps j := by
    intro j
    unfold Spec.chargeAt
    rw [hp.A, hp.SD]
    congr 1
    induction h with
    | nil => rfl
    | cons h _ ih => rw [List.map_cons, List.map_cons, ih, h.charge, h.items]
  unfold Spec.potential
  rw [hp.solve, hp.bc, hp.factor]
  simp only [hch]

theorem settle_alike {cfg cfg' : Cfg K V α σ φ} (hp : SamePhysics cfg cfg') (D : Nat) (onMesh : α → Bool) (count : Int) (time : K)
    {ps ps' : List (Pop K V α)} (h : List.Forall₂ SamePop ps ps') (side : σ) :
    Alike SameState (Spec.settle cfg D onMesh count time ps side) (Spec.settle cfg' D onMesh count time ps' side) := by
  have hon : ps'.all (fun p => p.st.items.all onMesh) = ps.all (fun p => p.st.items.all onMesh) := by
    induction h with
    | nil => rfl
    | cons h _ ih => rw [List.all_cons, List.all_cons, ih, h.items]
  unfold Spec.settle
  rw [hon]
  split
  · refine .inr (.inr (.inl ⟨_, _, rfl, rfl, rfl, rfl, ?_, rfl, same_potential hp D h⟩))
    dsimp only
    rw [List.forall₂_map_left_iff, List.forall₂_map_right_iff]
    exact h.imp (fun _ _ k => ⟨k.name, k.charge, k.items⟩)
  · exact .inr (.inr (.inr ⟨_, rfl, rfl⟩))

theorem step_alike {cfg cfg' : Cfg K V α σ φ} (hp : SamePhysics cfg cfg') (sl sl' D : Nat) (onMesh : α → Bool)
    {i i' : Ideal K V α σ} (h : SameState i i') :
    Alike SameState (i.step cfg sl D onMesh) (i'.step cfg' sl' D onMesh) := by
  unfold Ideal.step
  dsimp only
  rw [hp.move, hp.fieldOf, hp.dt, hp.sources, h.count, h.time, h.side, h.phi]
  rcases move_alike sl sl' (fun sn => cfg.move sn (cfg.fieldOf i.phi) (i.count + 1) (i.time + cfg.dt)) h.pops i.side
    with e | e | ⟨r, r', e, e', k1, k2⟩ | ⟨f, e, e'⟩
  · rw [e]; exact .inl rfl
  · rw [e]; exact .inr (.inl rfl)
  · obtain ⟨ps, s⟩ := r
    obtain ⟨ps', s'⟩ := r'
    cases k2
    rw [e, e']
    dsimp only
    rcases create_alike sl sl' (i.count + 1) (i.time + cfg.dt) cfg.sources k1 s with e | e | ⟨r, r', e, e', k1, k2⟩ | ⟨f, e, e'⟩
    · rw [e]; exact .inl rfl
    · rw [e]; exact .inr (.inl rfl)
    · obtain ⟨qs, t⟩ := r
      obtain ⟨qs', t'⟩ := r'
      cases k2
      rw [e, e']
      exact settle_alike hp D onMesh _ _ k1 t
    · rw [e, e']; exact .inr (.inr (.inr ⟨f, rfl, rfl⟩))
  · rw [e, e']; exact .inr (.inr (.inr ⟨f, rfl, rfl⟩))

theorem steps_alike {cfg cfg' : Cfg K V α σ φ} (hp : SamePhysics cfg cfg') (sl sl' D : Nat) (onMesh : α → Bool) (n : Nat)
    {i i' : Ideal K V α σ} (h : SameState i i') :
    Alike (List.Forall₂ SameState) (Ideal.steps cfg sl D onMesh n i) (Ideal.steps cfg' sl' D onMesh n i') := by
  induction n generalizing i i' with
  | zero => exact .inr (.inr (.inl ⟨_, _, rfl, rfl, .nil⟩))
  | succ n ih =>
    unfold Ideal.steps
    rcases step_alike hp sl sl' D onMesh h with e | e | ⟨r, r', e, e', k⟩ | ⟨f, e, e'⟩
    · rw [e]; exact .inl rfl
    · rw [e]; exact .inr (.inl rfl)
    · rw [e, e']
      dsimp only
      rcases ih k with e | e | ⟨r, r', e, e', k1⟩ | ⟨f, e, e'⟩
      · rw [e]; exact .inl rfl
      · rw [e]; exact .inr (.inl rfl)
      · rw [e, e']; exact .inr (.inr (.inl ⟨_, _, rfl, rfl, .cons k k1⟩))
      · rw [e, e']; exact .inr (.inr (.inr ⟨f, rfl, rfl⟩))
    · rw [e, e']; exact .inr (.inr (.inr ⟨f, rfl, rfl⟩))

theorem run_alike {cfg cfg' : Cfg K V α σ φ} (hp : SamePhysics cfg cfg') (sl sl' D : Nat) (onMesh : α → Bool)
    (init : Option (List (String × List α))) (b : List K) (n : Nat) {i i' : Ideal K V α σ} (h : SameState i i') :
    Alike (fun r r' => List.Forall₂ SameState (r.1 :: r.2) (r'.1 :: r'.2)) (Ideal.run cfg sl D onMesh init b n i)
      (Ideal.run cfg' sl' D onMesh init b n i') := by
  have start : Alike SameState (i.start cfg sl D onMesh init b) (i'.start cfg' sl' D onMesh init b) := by
    unfold Ideal.start
    cases init with
    | none => exact .inr (.inr (.inl ⟨_, _, rfl, rfl, h.count, h.time, h.pops, h.side, by rw [hp.solve]⟩))
    | some gs =>
      dsimp only
      rcases groups_alike sl sl' gs h.pops with e | e | ⟨r, r', e, e', k⟩ | ⟨f, e, e'⟩
      · rw [e]; exact .inl rfl
      · rw [e]; exact .inr (.inl rfl)
      · rw [e, e', h.count, h.time, h.side]
        exact settle_alike hp D onMesh _ _ k _
      · rw [e, e']; exact .inr (.inr (.inr ⟨f, rfl, rfl⟩))
  unfold Ideal.run
  rcases start with e | e | ⟨r, r', e, e', k⟩ | ⟨f, e, e'⟩
  · rw [e]; exact .inl rfl
  · rw [e]; exact .inr (.inl rfl)
  · rw [e, e']
    dsimp only
    rcases steps_alike hp sl sl' D onMesh n k with e | e | ⟨r, r', e, e', k1⟩ | ⟨f, e, e'⟩
    · rw [e]; exact .inl rfl
    · rw [e]; exact .inr (.inl rfl)
    · rw [e, e']; exact .inr (.inr (.inl ⟨_, _, rfl, rfl, .cons k k1⟩))
    · rw [e, e']; exact .inr (.inr (.inr ⟨f, rfl, rfl⟩))
  · rw [e, e']; exact .inr (.inr (.inr ⟨f, rfl, rfl⟩))

/-- What the user finds after the two runs: the same step, time, potential and state of the callbacks and
sources, and for every species the same particles in the same order. -/
structure SameEnd (s s' : State K V α σ φ) : Prop where
  count : s'.count = s.count
  time : s'.time = s.time
  side : s'.side = s.side
  phi : s'.solver.phi = s.solver.phi
  particles : List.Forall₂ (fun sp sp' => sp'.name = sp.name ∧ ∃ xs, Stores sp.sap xs ∧ Stores sp'.sap xs) s.sps s'.sps

theorem last_same {i0 i0' : Ideal K V α σ} {is is' : List (Ideal K V α σ)} (h : List.Forall₂ SameState (i0 :: is) (i0' :: is')) :
    SameState (lastOf i0 is) (lastOf i0' is') := by
  have key : ∀ {a b : Ideal K V α σ} {l l' : List (Ideal K V α σ)}, SameState a b → List.Forall₂ SameState l l' →
      SameState (l.getLast?.getD a) (l'.getLast?.getD b) := by
    intro a b l l' hab hl
    induction hl generalizing a b with
    | nil => exact hab
    | @cons c d l l' hcd hl ih =>
      have := ih hcd
      rw [List.getLast?_cons, List.getLast?_cons]
      exact this
  cases h with
  | cons h1 h2 => exact key h1 h2

theorem end_same {cfg cfg' : Cfg K V α σ φ} {d d' : Nat → Nat} {C C' : Nat} {init : Bool} {b b' : List K} {st st' s s' : State K V α σ φ}
    {i0 i0' : Ideal K V α σ} {is is' : List (Ideal K V α σ)} (h : List.Forall₂ SameState (i0 :: is) (i0' :: is'))
    (o : Outcome cfg d C init b st s i0 is) (o' : Outcome cfg' d' C' init b' st' s' i0' is') : SameEnd s s' := by
  have hl := last_same h
  refine ⟨by rw [o.count, o'.count, hl.count], by rw [o.time, o'.time, hl.time], by rw [o.side, o'.side, hl.side],
    by rw [o.phi, o'.phi, hl.phi], ?_⟩
  have key : ∀ {ps ps' : List (Pop K V α)} {l l' : List (Sp K V α)}, List.Forall₂ SamePop ps ps' →
      List.Forall₂ (fun sp p => sp.name = p.name ∧ Stores sp.sap p.st.items) l ps →
      List.Forall₂ (fun sp p => sp.name = p.name ∧ Stores sp.sap p.st.items) l' ps' →
      List.Forall₂ (fun sp sp' => sp'.name = sp.name ∧ ∃ xs, Stores sp.sap xs ∧ Stores sp'.sap xs) l l' := by
    intro ps ps' l l' hp
    induction hp generalizing l l' with
    | nil => intro h1 h2; cases h1; cases h2; exact .nil
    | @cons p p' ps ps' hpp hps ih =>
      intro h1 h2
      cases h1 with
      | cons a1 t1 =>
        cases h2 with
        | cons a2 t2 =>
          refine .cons ⟨by rw [a1.1, a2.1, hpp.name], _, a1.2, ?_⟩ (ih t1 t2)
          rw [← hpp.items]; exact a2.2
  exact key hl.pops o.particles o'.particles

/-- C118 (storage).  Two simulations with the same physics, any lengths of the segments of the particle
containers, and any settings for the output: if the first is in the scope of C68 and ends normally, the
second ends normally with the same particles, potential and time, or it ends with an AssertionError. -/
theorem C118_segments {cfg cfg' : Cfg K V α σ φ} (hp : SamePhysics cfg cfg') {onMesh : α → Bool} {d d' : Nat → Nat} {sl sl' D C C' : Nat}
    (hc : GoodCfg cfg) (hc' : GoodCfg cfg') (hm : GoodMesh cfg onMesh d D C) (hm' : GoodMesh cfg' onMesh d' D C')
    {z z' : Species.HRow K} (n : Nat) (init : Option (List (String × List α))) {st st' : State K V α σ φ} {i i' : Ideal K V α σ}
    {b : List K} (h : Fresh sl D C n z st i b) (h' : Fresh sl' D C' n z' st' i' b) (hi : SameState i i')
    (hnone : st.writer = none → cfg.partEvery = none) (hnone' : st'.writer = none → cfg'.partEvery = none)
    {i0 : Ideal K V α σ} {is : List (Ideal K V α σ)} (hr : Ideal.run cfg sl D onMesh init b n i = .ok (i0, is)) :
    ∃ s, run cfg init n st = .ok s ∧
      (run cfg' init n st' = .error .assertion ∨ ∃ s', run cfg' init n st' = .ok s' ∧ SameEnd s s') := by
  have k := C68_run hc hm n init h hnone
  have k' := C68_run hc' hm' n init h' hnone'
  rw [hr] at k
  obtain ⟨-, s, e, o⟩ := k
  refine ⟨s, e, ?_⟩
  rcases run_alike hp sl sl' D onMesh init b n hi with e1 | e1 | ⟨r, r', e1, e1', hs⟩ | ⟨f, e1, -⟩
  · rw [hr] at e1; cases e1
  · rw [e1] at k'; exact .inl k'
  · rw [hr] at e1
    cases e1
    rw [e1'] at k'
    obtain ⟨-, s', e', o'⟩ := k'
    exact .inr ⟨s', e', end_same hs o o'⟩
  · rw [hr] at e1; cases e1

theorem same_spec_run {cfg cfg' : Cfg K V α σ φ} (hp : SamePhysics cfg cfg') (sl D : Nat) (onMesh : α → Bool)
    (init : Option (List (String × List α))) (b : List K) (n : Nat) (i : Ideal K V α σ) :
    Ideal.run cfg' sl D onMesh init b n i = Ideal.run cfg sl D onMesh init b n i := by
  have hs : ∀ count time ps side, Spec.settle cfg' D onMesh count time ps side = Spec.settle cfg D onMesh count time ps side := by
    intro count time ps side
    unfold Spec.settle Spec.potential Spec.chargeAt
    rw [hp.A, hp.SD, hp.solve, hp.bc, hp.factor]
  have h1 : ∀ i : Ideal K V α σ, i.step cfg' sl D onMesh = i.step cfg sl D onMesh := by
    intro i
    unfold Ideal.step
    simp only [hp.move, hp.fieldOf, hp.dt, hp.sources, hs]
  have h2 : ∀ n (i : Ideal K V α σ), Ideal.steps cfg' sl D onMesh n i = Ideal.steps cfg sl D onMesh n i := by
    intro n
    induction n with
    | zero => intro i; rfl
    | succ n ih => intro i; unfold Ideal.steps; simp only [h1, ih]
  unfold Ideal.run Ideal.start
  simp only [h2, hs, hp.solve]

/-- C118 (output).  Whether, how often and what is written to the particle file, the cell-density file,
the field file and the histories does not influence the simulation: with the same physics and the same
segment length, both runs end normally, with the same particles, potential and time, or both raise the
same exception. -/
theorem C118_output {cfg cfg' : Cfg K V α σ φ} (hp : SamePhysics cfg cfg') {onMesh : α → Bool} {d d' : Nat → Nat} {sl D C C' : Nat}
    (hc : GoodCfg cfg) (hc' : GoodCfg cfg') (hm : GoodMesh cfg onMesh d D C) (hm' : GoodMesh cfg' onMesh d' D C')
    {z z' : Species.HRow K} (n : Nat) (init : Option (List (String × List α))) {st st' : State K V α σ φ} {i : Ideal K V α σ}
    {b : List K} (h : Fresh sl D C n z st i b) (h' : Fresh sl D C' n z' st' i b)
    (hnone : st.writer = none → cfg.partEvery = none) (hnone' : st'.writer = none → cfg'.partEvery = none)
    (hlost : Ideal.run cfg sl D onMesh init b n i ≠ .error .allLost) (hoff : Ideal.run cfg sl D onMesh init b n i ≠ .error .offMesh) :
    (∃ s s', run cfg init n st = .ok s ∧ run cfg' init n st' = .ok s' ∧ SameEnd s s') ∨
      ∃ e, run cfg init n st = .error e ∧ run cfg' init n st' = .error e := by
  have k := C68_run hc hm n init h hnone
  have k' := C68_run hc' hm' n init h' hnone'
  rw [same_spec_run hp] at k'
  cases hr : Ideal.run cfg sl D onMesh init b n i with
  | error f =>
    rw [hr] at k k'
    cases f with
    | raises e => exact .inr ⟨e, k, k'⟩
    | allLost => exact absurd hr hlost
    | offMesh => exact absurd hr hoff
  | ok r =>
    obtain ⟨i0, is⟩ := r
    rw [hr] at k k'
    obtain ⟨-, s, e, o⟩ := k
    obtain ⟨-, s', e', o'⟩ := k'
    refine .inl ⟨s, s', e, e', end_same ?_ o o'⟩
    rw [List.forall₂_same]
    exact fun j _ => ⟨rfl, rfl, List.forall₂_same.2 fun _ _ => ⟨rfl, rfl, rfl⟩, rfl, rfl⟩

theorem steps_prefix {cfg : Cfg K V α σ φ} {sl D : Nat} {onMesh : α → Bool} (m k : Nat) {i : Ideal K V α σ}
    {is : List (Ideal K V α σ)} (h : Ideal.steps cfg sl D onMesh (m + k) i = .ok is) :
    ∃ js, Ideal.steps cfg sl D onMesh m i = .ok js ∧ js <+: is := by
  induction m generalizing i is with
  | zero => exact ⟨[], rfl, List.nil_prefix⟩
  | succ m ih =>
    rw [Nat.succ_add] at h
    unfold Ideal.steps at h ⊢
    cases e : i.step cfg sl D onMesh with
    | error f => rw [e] at h; cases h
    | ok i' =>
      rw [e] at h
      dsimp only at h ⊢
      cases e' : Ideal.steps cfg sl D onMesh (m + k) i' with
      | error f => rw [e'] at h; cases h
      | ok l =>
        rw [e'] at h
        cases h
        obtain ⟨js, h1, h2⟩ := ih e'
        rw [h1]
        exact ⟨_, rfl, (List.prefix_cons_inj i').2 h2⟩

/-- C118 (number of steps).  If a simulation of `m + k` steps ends normally, so does the one of `m` steps,
and what it writes to the field file and the histories is what the longer one writes first. -/
theorem C118_longer {cfg : Cfg K V α σ φ} {onMesh : α → Bool} {d : Nat → Nat} {sl D C : Nat}
    (hc : GoodCfg cfg) (hm : GoodMesh cfg onMesh d D C) {z z' : Species.HRow K} (m k : Nat)
    (init : Option (List (String × List α))) {st st' : State K V α σ φ} {i : Ideal K V α σ} {b : List K}
    (h : Fresh sl D C m z st i b) (h' : Fresh sl D C (m + k) z' st' i b)
    (hnone : st.writer = none → cfg.partEvery = none) (hnone' : st'.writer = none → cfg.partEvery = none)
    {i0 : Ideal K V α σ} {is : List (Ideal K V α σ)} (hr : Ideal.run cfg sl D onMesh init b (m + k) i = .ok (i0, is)) :
    ∃ s s', run cfg init m st = .ok s ∧ run cfg init (m + k) st' = .ok s' ∧ s.phiLog <+: s'.phiLog ∧
      ∀ g g', s.hist = some g → s'.hist = some g' → st.hist.isSome = true → st'.hist.isSome = true → g.rows <+: g'.rows := by
  have a := C68_run hc hm (m + k) init h' hnone'
  rw [hr] at a
  obtain ⟨-, s', e', o'⟩ := a
  have hr' : ∃ js, Ideal.run cfg sl D onMesh init b m i = .ok (i0, js) ∧ js <+: is := by
    unfold Ideal.run at hr ⊢
    cases e : i.start cfg sl D onMesh init b with
    | error f => rw [e] at hr; cases hr
    | ok j =>
      rw [e] at hr
      dsimp only at hr ⊢
      cases e1 : Ideal.steps cfg sl D onMesh (m + k) j with
      | error f => rw [e1] at hr; cases hr
      | ok l =>
        rw [e1] at hr
        cases hr
        obtain ⟨js, h1, h2⟩ := steps_prefix m k e1
        rw [h1]
        exact ⟨js, rfl, h2⟩
  obtain ⟨js, hj, hpre⟩ := hr'
  have c := C68_run hc hm m init h hnone
  rw [hj] at c
  obtain ⟨-, s, e, o⟩ := c
  refine ⟨s, s', e, e', ?_, ?_⟩
  · rw [o.phiLog, o'.phiLog]
    refine (List.prefix_append_right_inj _).2 ?_
    exact List.IsPrefix.map _ (List.IsPrefix.filter _ hpre)
  · intro g g' hg hg' h1 h2
    obtain ⟨g1, k1, k2⟩ := o.hist h1
    obtain ⟨g2, l1, l2⟩ := o'.hist h2
    rw [k1] at hg
    rw [l1] at hg'
    cases hg
    cases hg'
    rw [k2, l2]
    exact List.IsPrefix.map _ ((List.prefix_cons_inj i0).2 hpre)

/-! ### The hypotheses are met; and where the segment length matters -/

open Fld (Dep)

/-- The simulation of the example of C68 without any output. -/
def quietCfg : Cfg ℚ ℚ Dep Nat ℚ := { loopCfg [loopSource] with partEvery := none, cellEvery := none, fieldEvery := none, quantities := [] }

/-- ... and with containers with segments of another length. -/
def quietState (sl : Nat) : State ℚ ℚ Dep Nat ℚ :=
  { loopState 3 (loopSps.map fun sp => { sp with sap := SAP.new sl (0, 0, 0) }) with writer := none, hist := none }

theorem quiet_physics : SamePhysics (loopCfg [loopSource]) quietCfg := ⟨rfl, rfl, rfl, rfl, rfl, rfl, rfl, rfl, rfl⟩

theorem quiet_good : GoodCfg quietCfg := ⟨demoOut_good, by simp [quietCfg], by simp [quietCfg], by simp [quietCfg], by simp [quietCfg]⟩

theorem quiet_mesh : GoodMesh quietCfg onDemo (fun k => 1 - k) 3 2 := ⟨(loop_mesh [loopSource]).fits, (loop_mesh [loopSource]).cell, Fld.demo_cell⟩

theorem quiet_fresh (sl : Nat) (h : 0 < sl) : Fresh sl 3 2 3 ⟨0, 0, []⟩ (quietState sl) (loopIdeal loopSps) [0, 0, 0] := by
  refine ⟨rfl, rfl, rfl, rfl, rfl, ?_, (loop_fresh 3 [("e", -1, 1, 1), ("H", 0, 4, 2)]).empty, .inl rfl, by simp [HistIs, quietState], rfl, rfl⟩
  exact .cons ⟨rfl, rfl, rfl, rfl, ⟨SAP.Reachable.new sl _ h, SAP.new_sim sl _ h, rfl⟩, rfl, rfl⟩
    (.cons ⟨rfl, rfl, rfl, rfl, ⟨SAP.Reachable.new sl _ h, SAP.new_sim sl _ h, rfl⟩, rfl, rfl⟩ .nil)

theorem same_refl (i : Ideal K V α σ) : SameState i i := ⟨rfl, rfl, List.forall₂_same.2 fun _ _ => ⟨rfl, rfl, rfl⟩, rfl, rfl⟩

-- No output, and segments of any length.
example (sl : Nat) (h : 0 < sl) : ∃ s, run (loopCfg [loopSource]) (some (loopInit false)) 3 (loopState 3 loopSps) = .ok s ∧
    (run quietCfg (some (loopInit false)) 3 (quietState sl) = .error .assertion ∨
      ∃ s', run quietCfg (some (loopInit false)) 3 (quietState sl) = .ok s' ∧ SameEnd s s') := by
  obtain ⟨i0, is, e⟩ := loopRun_ok
  exact C118_segments quiet_physics (loop_good _) quiet_good (loop_mesh _) quiet_mesh 3 (some (loopInit false))
    (loop_fresh 3 [("e", -1, 1, 1), ("H", 0, 4, 2)]) (quiet_fresh sl h) (same_refl _) (by simp [loopState]) (fun _ => rfl) e

-- No output, the same segments.
example : (∃ s s', run (loopCfg [loopSource]) (some (loopInit false)) 3 (loopState 3 loopSps) = .ok s ∧
    run quietCfg (some (loopInit false)) 3 (quietState 2) = .ok s' ∧ SameEnd s s') ∨
    ∃ e, run (loopCfg [loopSource]) (some (loopInit false)) 3 (loopState 3 loopSps) = .error e ∧
      run quietCfg (some (loopInit false)) 3 (quietState 2) = .error e := by
  obtain ⟨i0, is, e⟩ := loopRun_ok
  have e' : Ideal.run (loopCfg [loopSource]) 2 3 onDemo (some (loopInit false)) [0, 0, 0] 3 (loopIdeal loopSps) = .ok (i0, is) := e
  exact C118_output quiet_physics (loop_good _) quiet_good (loop_mesh _) quiet_mesh 3 (some (loopInit false))
    (loop_fresh 3 [("e", -1, 1, 1), ("H", 0, 4, 2)]) (quiet_fresh 2 (by decide)) (by simp [loopState]) (fun _ => rfl)
    (by intro h; have := e'.symm.trans h; cases this) (by intro h; have := e'.symm.trans h; cases this)

-- One step, and three.
example : ∃ s s', run (loopCfg [loopSource]) (some (loopInit false)) 1 (loopState 1 loopSps) = .ok s ∧
    run (loopCfg [loopSource]) (some (loopInit false)) (1 + 2) (loopState 3 loopSps) = .ok s' ∧ s.phiLog <+: s'.phiLog := by
  obtain ⟨i0, is, e⟩ := loopRun_ok
  obtain ⟨s, s', h1, h2, h3, -⟩ := C118_longer (loop_good [loopSource]) (loop_mesh _) 1 2 (some (loopInit false))
    (loop_fresh 1 [("e", -1, 1, 1), ("H", 0, 4, 2)]) (loop_fresh 3 [("e", -1, 1, 1), ("H", 0, 4, 2)]) (by simp [loopState])
    (by simp [loopState]) e
  exact ⟨s, s', h1, h2, h3⟩

/-- C118 is false for the segment length, as far as running without errors is concerned: the same simulation
raises with segments of 2 particles and ends normally with segments of 3. -/
theorem C118_false_segments :
    (run quietCfg (some (loopInit true)) 3 (quietState 2)).map (fun _ => ()) = .error .assertion ∧
    (run quietCfg (some (loopInit true)) 3 (quietState 3)).map (fun _ => ()) = .ok () := by decide +kernel

end Dt
