import Verif.Props.Tuning
import Verif.Props.CppPermute

/-!
# The settings for storage and output do not influence compiled simulations (C129)
-/

namespace Dt
open Spec TimeLoop
set_option linter.unusedSectionVars false
variable {K V α σ φ : Type} [Field K] [LinearOrder K]

/-- Both end well with related results, or both fail alike; unless (only if `P`) one of them aborts. -/
def CAlike {β γ : Type} (P : Prop) (R : β → γ → Prop) (r : Except Comp.Fault β) (r' : Except Comp.Fault γ) : Prop :=
  (P ∧ r = .error (.raises .abort)) ∨ (P ∧ r' = .error (.raises .abort)) ∨
    (∃ b c, r = .ok b ∧ r' = .ok c ∧ R b c) ∨ ∃ f, r = .error f ∧ r' = .error f

theorem CAlike.mono {β γ : Type} {P Q : Prop} (hPQ : P → Q) {R : β → γ → Prop} {r : Except Comp.Fault β} {r' : Except Comp.Fault γ}
    (h : CAlike P R r r') : CAlike Q R r r' := by
  rcases h with ⟨hP, e⟩ | ⟨hP, e⟩ | h | h
  · exact .inl ⟨hPQ hP, e⟩
  · exact .inr (.inl ⟨hPQ hP, e⟩)
  · exact .inr (.inr (.inl h))
  · exact .inr (.inr (.inr h))

theorem comp_appendAll_cases (array : Bool) (sl : Nat) (st : LState α) (xs : List α) :
    (array = true ∧ Comp.appendAll array sl st xs = .error (.raises .abort)) ∨
      ∃ st', Comp.appendAll array sl st xs = .ok st' ∧ st'.items = st.items ++ xs := by
  induction xs generalizing st with
  | nil => exact .inr ⟨st, rfl, by simp⟩
  | cons x xs ih =>
    unfold Comp.appendAll
    split
    · rename_i h
      exact .inl ⟨h.1, rfl⟩
    · rcases ih ⟨st.items ++ [x], st.stale⟩ with h | ⟨st', h, e⟩
      · exact .inl h
      · exact .inr ⟨st', h, by simpa using e⟩

theorem comp_move_alike (sl sl' : Nat) (mv : String → Adv σ α) {ps ps' : List (Pop K V α)} (h : List.Forall₂ SamePop ps ps')
    (side : σ) :
    CAlike False (fun r r' => List.Forall₂ SamePop r.1 r'.1 ∧ r'.2 = r.2) (Comp.moveAll sl mv ps side) (Comp.moveAll sl' mv ps' side) := by
  induction h generalizing side with
  | nil => exact .inr (.inr (.inl ⟨_, _, rfl, rfl, .nil, rfl⟩))
  | @cons p p' ps ps' hp hps ih =>
    have one : CAlike False (fun r r' => SamePop r.1 r'.1 ∧ r'.2 = r.2) (Comp.movePop sl mv p side) (Comp.movePop sl' mv p' side) := by
      unfold Comp.movePop
      rw [hp.charge, hp.items, hp.name]
      by_cases h0 : p.charge = 0 ∨ p.st.items = []
      · rw [if_pos h0, if_pos h0]
        exact .inr (.inr (.inl ⟨_, _, rfl, rfl, hp, rfl⟩))
      · rw [if_neg h0, if_neg h0]
        split
        · exact .inr (.inr (.inr ⟨_, rfl, rfl⟩))
        split
        · exact .inr (.inr (.inr ⟨_, rfl, rfl⟩))
        · exact .inr (.inr (.inl ⟨_, _, rfl, rfl, ⟨rfl, rfl, rfl⟩, rfl⟩))
    unfold Comp.moveAll
    rcases one with ⟨hP, e⟩ | ⟨hP, e⟩ | ⟨r, r', e, e', h1, h2⟩ | ⟨f, e, e'⟩
    · rw [e]; exact .inl ⟨hP, rfl⟩
    · rw [e]; exact .inr (.inl ⟨hP, rfl⟩)
    · obtain ⟨q, s⟩ := r
      obtain ⟨q', s'⟩ := r'
      cases h2
      rw [e, e']
      dsimp only
      rcases ih s with ⟨hP, e1⟩ | ⟨hP, e1⟩ | ⟨r, r', e1, e1', k1, k2⟩ | ⟨f, e1, e1'⟩
      · rw [e1]; exact .inl ⟨hP, rfl⟩
      · rw [e1]; exact .inr (.inl ⟨hP, rfl⟩)
      · rw [e1, e1']
        exact .inr (.inr (.inl ⟨_, _, rfl, rfl, .cons h1 k1, k2⟩))
      · rw [e1, e1']; exact .inr (.inr (.inr ⟨f, rfl, rfl⟩))
    · rw [e, e']; exact .inr (.inr (.inr ⟨f, rfl, rfl⟩))

theorem comp_append_alike (array : Bool) (sl sl' : Nat) (name : String) (xs : List α) {ps ps' : List (Pop K V α)} (h : List.Forall₂ SamePop ps ps') :
    CAlike (array = true) (List.Forall₂ SamePop) (Comp.appendTo array sl name xs ps) (Comp.appendTo array sl' name xs ps') := by
  induction h with
  | nil => exact .inr (.inr (.inr ⟨_, rfl, rfl⟩))
  | @cons p p' ps ps' hp hps ih =>
    unfold Comp.appendTo
    rw [hp.name]
    by_cases hn : p.name = name
    · rw [if_pos hn, if_pos hn]
      rcases comp_appendAll_cases array sl p.st xs with ⟨hP, e⟩ | ⟨st, e, he⟩
      · rw [e]; exact .inl ⟨hP, rfl⟩
      · rcases comp_appendAll_cases array sl' p'.st xs with ⟨hP, e'⟩ | ⟨st', e', he'⟩
        · rw [e']; exact .inr (.inl ⟨hP, rfl⟩)
        · rw [e, e']
          exact .inr (.inr (.inl ⟨_, _, rfl, rfl, .cons ⟨rfl, hp.charge, by rw [he, he', hp.items]⟩ hps⟩))
    · rw [if_neg hn, if_neg hn]
      rcases ih with ⟨hP, e1⟩ | ⟨hP, e1⟩ | ⟨r, r', e1, e1', k⟩ | ⟨f, e1, e1'⟩
      · rw [e1]; exact .inl ⟨hP, rfl⟩
      · rw [e1]; exact .inr (.inl ⟨hP, rfl⟩)
      · rw [e1, e1']; exact .inr (.inr (.inl ⟨_, _, rfl, rfl, .cons hp k⟩))
      · rw [e1, e1']; exact .inr (.inr (.inr ⟨f, rfl, rfl⟩))

theorem comp_create_alike (sl sl' : Nat) (count : Int) (time : K) (ss : List (Src K α σ)) {ps ps' : List (Pop K V α)}
    (h : List.Forall₂ SamePop ps ps') (side : σ) :
    CAlike (ss ≠ []) (fun r r' => List.Forall₂ SamePop r.1 r'.1 ∧ r'.2 = r.2) (Comp.createAll sl count time ss ps side)
      (Comp.createAll sl' count time ss ps' side) := by
  induction ss generalizing ps ps' side with
  | nil => exact .inr (.inr (.inl ⟨_, _, rfl, rfl, h, rfl⟩))
  | cons s ss ih =>
    unfold Comp.createAll
    split
    · exact .inr (.inr (.inr ⟨_, rfl, rfl⟩))
    · split
      · cases s.make count time side with
        | error e => exact .inr (.inr (.inr ⟨_, rfl, rfl⟩))
        | ok r =>
          obtain ⟨side', xs⟩ := r
          dsimp only
          rcases comp_append_alike true sl sl' s.species xs h with ⟨hP, e1⟩ | ⟨hP, e1⟩ | ⟨r, r', e1, e1', k⟩ | ⟨f, e1, e1'⟩
          · rw [e1]; exact .inl ⟨by simp, rfl⟩
          · rw [e1]; exact .inr (.inl ⟨by simp, rfl⟩)
          · rw [e1, e1']; exact (ih k side').mono (fun _ => by simp)
          · rw [e1, e1']; exact .inr (.inr (.inr ⟨f, rfl, rfl⟩))
      · exact (ih h side).mono (fun _ => by simp)

theorem comp_groups_alike (sl sl' : Nat) (gs : List (String × List α)) {ps ps' : List (Pop K V α)} (h : List.Forall₂ SamePop ps ps') :
    CAlike False (List.Forall₂ SamePop) (Comp.appendGroups sl gs ps) (Comp.appendGroups sl' gs ps') := by
  induction gs generalizing ps ps' with
  | nil => exact .inr (.inr (.inl ⟨_, _, rfl, rfl, h⟩))
  | cons g gs ih =>
    unfold Comp.appendGroups
    rcases comp_append_alike false sl sl' g.1 g.2 h with ⟨hP, e1⟩ | ⟨hP, e1⟩ | ⟨r, r', e1, e1', k⟩ | ⟨f, e1, e1'⟩
    · cases hP
    · cases hP
    · rw [e1, e1']; exact ih k
    · rw [e1, e1']; exact .inr (.inr (.inr ⟨f, rfl, rfl⟩))

theorem comp_settle_alike {cfg cfg' : Cfg K V α σ φ} (hp : SamePhysics cfg cfg') (D : Nat) (onMesh : α → Bool) (count : Int) (time : K)
    {ps ps' : List (Pop K V α)} (h : List.Forall₂ SamePop ps ps') (side : σ) :
    CAlike False SameState (Comp.settle cfg D onMesh count time ps side) (Comp.settle cfg' D onMesh count time ps' side) := by
  have hon : ps'.all (fun p => p.st.items.all onMesh) = ps.all (fun p => p.st.items.all onMesh) := by
    induction h with
    | nil => rfl
    | cons h _ ih => rw [List.all_cons, List.all_cons, ih, h.items]
  unfold Comp.settle
  rw [hon]
  split
  · refine .inr (.inr (.inl ⟨_, _, rfl, rfl, rfl, rfl, ?_, rfl, same_potential hp D h⟩))
    dsimp only
    rw [List.forall₂_map_left_iff, List.forall₂_map_right_iff]
    exact h.imp (fun _ _ k => ⟨k.name, k.charge, k.items⟩)
  · exact .inr (.inr (.inr ⟨_, rfl, rfl⟩))

theorem comp_step_alike {cfg cfg' : Cfg K V α σ φ} (hp : SamePhysics cfg cfg') (sl sl' D : Nat) (onMesh : α → Bool)
    {i i' : Ideal K V α σ} (h : SameState i i') :
    CAlike (cfg.sources ≠ []) SameState (Comp.step cfg sl D onMesh i) (Comp.step cfg' sl' D onMesh i') := by
  unfold Comp.step
  dsimp only
  rw [hp.move, hp.fieldOf, hp.dt, hp.sources, h.count, h.time, h.side, h.phi]
  rcases comp_move_alike sl sl' (fun sn => cfg.move sn (cfg.fieldOf i.phi) (i.count + 1) (i.time + cfg.dt)) h.pops i.side
    with ⟨hP, e⟩ | ⟨hP, e⟩ | ⟨r, r', e, e', k1, k2⟩ | ⟨f, e, e'⟩
  · exact hP.elim
  · exact hP.elim
  · obtain ⟨ps, s⟩ := r
    obtain ⟨ps', s'⟩ := r'
    cases k2
    rw [e, e']
    dsimp only
    rcases comp_create_alike sl sl' (i.count + 1) (i.time + cfg.dt) cfg.sources k1 s with ⟨hP, e⟩ | ⟨hP, e⟩ | ⟨r, r', e, e', k1, k2⟩ | ⟨f, e, e'⟩
    · rw [e]; exact .inl ⟨hP, rfl⟩
    · rw [e]; exact .inr (.inl ⟨hP, rfl⟩)
    · obtain ⟨qs, t⟩ := r
      obtain ⟨qs', t'⟩ := r'
      cases k2
      rw [e, e']
      exact (comp_settle_alike hp D onMesh _ _ k1 t).mono False.elim
    · rw [e, e']; exact .inr (.inr (.inr ⟨f, rfl, rfl⟩))
  · rw [e, e']; exact .inr (.inr (.inr ⟨f, rfl, rfl⟩))

theorem comp_steps_alike {cfg cfg' : Cfg K V α σ φ} (hp : SamePhysics cfg cfg') (sl sl' D : Nat) (onMesh : α → Bool) (n : Nat)
    {i i' : Ideal K V α σ} (h : SameState i i') :
    CAlike (cfg.sources ≠ []) (List.Forall₂ SameState) (Comp.steps cfg sl D onMesh n i) (Comp.steps cfg' sl' D onMesh n i') := by
  induction n generalizing i i' with
  | zero => exact .inr (.inr (.inl ⟨_, _, rfl, rfl, .nil⟩))
  | succ n ih =>
    unfold Comp.steps
    rcases comp_step_alike hp sl sl' D onMesh h with ⟨hP, e⟩ | ⟨hP, e⟩ | ⟨r, r', e, e', k⟩ | ⟨f, e, e'⟩
    · rw [e]; exact .inl ⟨hP, rfl⟩
    · rw [e]; exact .inr (.inl ⟨hP, rfl⟩)
    · rw [e, e']
      dsimp only
      rcases ih k with ⟨hP, e⟩ | ⟨hP, e⟩ | ⟨r, r', e, e', k1⟩ | ⟨f, e, e'⟩
      · rw [e]; exact .inl ⟨hP, rfl⟩
      · rw [e]; exact .inr (.inl ⟨hP, rfl⟩)
      · rw [e, e']; exact .inr (.inr (.inl ⟨_, _, rfl, rfl, .cons k k1⟩))
      · rw [e, e']; exact .inr (.inr (.inr ⟨f, rfl, rfl⟩))
    · rw [e, e']; exact .inr (.inr (.inr ⟨f, rfl, rfl⟩))

theorem comp_run_alike {cfg cfg' : Cfg K V α σ φ} (hp : SamePhysics cfg cfg') (sl sl' D : Nat) (onMesh : α → Bool)
    (init : Option (List (String × List α))) (b : List K) (n : Nat) {i i' : Ideal K V α σ} (h : SameState i i') :
    CAlike (cfg.sources ≠ []) (fun r r' => List.Forall₂ SameState (r.1 :: r.2) (r'.1 :: r'.2)) (Comp.run cfg sl D onMesh init b n i)
      (Comp.run cfg' sl' D onMesh init b n i') := by
  have start : CAlike False SameState (Comp.start cfg sl D onMesh init b i) (Comp.start cfg' sl' D onMesh init b i') := by
    unfold Comp.start
    cases init with
    | none => exact .inr (.inr (.inl ⟨_, _, rfl, rfl, h.count, h.time, h.pops, h.side, by rw [hp.solve]⟩))
    | some gs =>
      dsimp only
      rcases comp_groups_alike sl sl' gs h.pops with ⟨hP, e⟩ | ⟨hP, e⟩ | ⟨r, r', e, e', k⟩ | ⟨f, e, e'⟩
      · rw [e]; exact .inl ⟨hP, rfl⟩
      · rw [e]; exact .inr (.inl ⟨hP, rfl⟩)
      · rw [e, e', h.count, h.time, h.side]
        exact comp_settle_alike hp D onMesh _ _ k _
      · rw [e, e']; exact .inr (.inr (.inr ⟨f, rfl, rfl⟩))
  unfold Comp.run
  rcases start.mono (Q := cfg.sources ≠ []) False.elim with ⟨hP, e⟩ | ⟨hP, e⟩ | ⟨r, r', e, e', k⟩ | ⟨f, e, e'⟩
  · rw [e]; exact .inl ⟨hP, rfl⟩
  · rw [e]; exact .inr (.inl ⟨hP, rfl⟩)
  · rw [e, e']
    dsimp only
    rcases comp_steps_alike hp sl sl' D onMesh n k with ⟨hP, e⟩ | ⟨hP, e⟩ | ⟨r, r', e, e', k1⟩ | ⟨f, e, e'⟩
    · rw [e]; exact .inl ⟨hP, rfl⟩
    · rw [e]; exact .inr (.inl ⟨hP, rfl⟩)
    · rw [e, e']; exact .inr (.inr (.inl ⟨_, _, rfl, rfl, .cons k k1⟩))
    · rw [e, e']; exact .inr (.inr (.inr ⟨f, rfl, rfl⟩))
  · rw [e, e']; exact .inr (.inr (.inr ⟨f, rfl, rfl⟩))

/-- What the user finds after the two runs: the same step, time, potential and state of the callbacks and
sources, and for every species the same particles in the same order. -/
structure SameCppEnd (s s' : CppLoop.State K V α σ φ) : Prop where
  count : s'.count = s.count
  time : s'.time = s.time
  side : s'.side = s.side
  phi : s'.solver.phi = s.solver.phi
  particles : List.Forall₂ (fun sp sp' => sp'.name = sp.name ∧ ∃ xs, CStores sp.sap xs ∧ CStores sp'.sap xs) s.sps s'.sps

theorem comp_end_same {cfg cfg' : Cfg K V α σ φ} {d d' : Nat → Nat} {C C' : Nat} {init : Bool} {b b' : List K} {st st' s s' : CppLoop.State K V α σ φ}
    {i0 i0' : Ideal K V α σ} {is is' : List (Ideal K V α σ)} {skip skip' : Int} (h : List.Forall₂ SameState (i0 :: is) (i0' :: is'))
    (o : CppOutcome Eq cfg d C skip init b st s i0 is) (o' : CppOutcome Eq cfg' d' C' skip' init b' st' s' i0' is') : SameCppEnd s s' := by
  have hl := last_same h
  refine ⟨by rw [o.count, o'.count, hl.count], by rw [o.time, o'.time, hl.time], by rw [o.side, o'.side, hl.side],
    by rw [o.phi, o'.phi, hl.phi], ?_⟩
  have key : ∀ {ps ps' : List (Pop K V α)} {l l' : List (CppLoop.Sp K V α)}, List.Forall₂ SamePop ps ps' →
      List.Forall₂ (fun sp p => sp.name = p.name ∧ CStores sp.sap p.st.items) l ps →
      List.Forall₂ (fun sp p => sp.name = p.name ∧ CStores sp.sap p.st.items) l' ps' →
      List.Forall₂ (fun sp sp' => sp'.name = sp.name ∧ ∃ xs, CStores sp.sap xs ∧ CStores sp'.sap xs) l l' := by
    intro ps ps' l l' hp
    induction hp generalizing l l' with
    | nil => intro h1 h2; cases h1; cases h2; exact .nil
    | @cons p p' ps ps' hpp hps ih =>
      intro h1 h2
      cases h1 with
      | cons a1 t1 =>
        cases h2 with
        | cons a2 t2 =>
          refine .cons ⟨by rw [a1.1, a2.1, hpp.name], _, a1.2, ?_⟩ (ih t1 t2)
          rw [← hpp.items]; exact a2.2
  exact key hl.pops o.particles o'.particles

/-- C129 (storage).  Two simulations with the same physics, any lengths of the segments of the particle
containers, and any settings for the output: if the first is in the scope of C109 and ends normally, the
second ends normally with the same particles, potential and time, or it aborts; without sources it does not abort. -/
theorem C129_segments {cfg cfg' : Cfg K V α σ φ} (hp : SamePhysics cfg cfg') {onMesh : α → Bool} {d d' : Nat → Nat} {sl sl' D C C' : Nat}
    (h2 : 2 ≤ sl) (h2' : 2 ≤ sl') (hc : CppLoop.GoodEvery cfg) (hc' : CppLoop.GoodEvery cfg') (hm : GoodMesh cfg onMesh d D C) (hm' : GoodMesh cfg' onMesh d' D C')
    {skip skip' : Int} (hs : skip ≠ 0) (hs' : skip' ≠ 0) (n : Nat) (init : Option (List (String × List α))) {st st' : CppLoop.State K V α σ φ} {i i' : Ideal K V α σ}
    {b : List K} (h : CppLoop.Fresh sl D C skip st i b) (h' : CppLoop.Fresh sl' D C' skip' st' i' b) (hi : SameState i i')
    (hnone : st.file = none → cfg.partEvery = none) (hnone' : st'.file = none → cfg'.partEvery = none)
    {i0 : Ideal K V α σ} {is : List (Ideal K V α σ)} (hr : Comp.run cfg sl D onMesh init b n i = .ok (i0, is)) :
    ∃ s, CppLoop.run cfg init n st = .ok s ∧
      ((cfg.sources ≠ [] ∧ CppLoop.run cfg' init n st' = .error .abort) ∨ ∃ s', CppLoop.run cfg' init n st' = .ok s' ∧ SameCppEnd s s') := by
  have k := C109_run h2 hc hm hs n init h hnone
  have k' := C109_run h2' hc' hm' hs' n init h' hnone'
  rw [hr] at k
  obtain ⟨-, s, e, o⟩ := k
  refine ⟨s, e, ?_⟩
  rcases comp_run_alike hp sl sl' D onMesh init b n hi with ⟨hP, e1⟩ | ⟨hP, e1⟩ | ⟨r, r', e1, e1', hs⟩ | ⟨f, e1, -⟩
  · rw [hr] at e1; cases e1
  · rw [e1] at k'; exact .inl ⟨hP, k'⟩
  · rw [hr] at e1
    cases e1
    rw [e1'] at k'
    obtain ⟨-, s', e', o'⟩ := k'
    exact .inr ⟨s', e', comp_end_same hs o o'⟩
  · rw [hr] at e1; cases e1

theorem comp_same_run {cfg cfg' : Cfg K V α σ φ} (hp : SamePhysics cfg cfg') (sl D : Nat) (onMesh : α → Bool)
    (init : Option (List (String × List α))) (b : List K) (n : Nat) (i : Ideal K V α σ) :
    Comp.run cfg' sl D onMesh init b n i = Comp.run cfg sl D onMesh init b n i := by
  have hs : ∀ count time ps side, Comp.settle cfg' D onMesh count time ps side = Comp.settle cfg D onMesh count time ps side := by
    intro count time ps side
    unfold Comp.settle Spec.potential Spec.chargeAt
    rw [hp.A, hp.SD, hp.solve, hp.bc, hp.factor]
  have h1 : ∀ i : Ideal K V α σ, Comp.step cfg' sl D onMesh i = Comp.step cfg sl D onMesh i := by
    intro i
    unfold Comp.step
    simp only [hp.move, hp.fieldOf, hp.dt, hp.sources, hs]
  have h2 : ∀ n (i : Ideal K V α σ), Comp.steps cfg' sl D onMesh n i = Comp.steps cfg sl D onMesh n i := by
    intro n
    induction n with
    | zero => intro i; rfl
    | succ n ih => intro i; unfold Comp.steps; simp only [h1, ih]
  unfold Comp.run Comp.start
  simp only [h2, hs, hp.solve]

/-- C129 (output).  Whether, how often and what is written to the particle file, the cell-density file,
the field file and the histories does not influence the simulation: with the same physics and the same
segment length, both runs end normally, with the same particles, potential and time, or both raise the
same exception. -/
theorem C129_output {cfg cfg' : Cfg K V α σ φ} (hp : SamePhysics cfg cfg') {onMesh : α → Bool} {d d' : Nat → Nat} {sl D C C' : Nat}
    (h2 : 2 ≤ sl) (hc : CppLoop.GoodEvery cfg) (hc' : CppLoop.GoodEvery cfg') (hm : GoodMesh cfg onMesh d D C) (hm' : GoodMesh cfg' onMesh d' D C')
    {skip skip' : Int} (hs : skip ≠ 0) (hs' : skip' ≠ 0) (n : Nat) (init : Option (List (String × List α))) {st st' : CppLoop.State K V α σ φ} {i : Ideal K V α σ}
    {b : List K} (h : CppLoop.Fresh sl D C skip st i b) (h' : CppLoop.Fresh sl D C' skip' st' i b)
    (hnone : st.file = none → cfg.partEvery = none) (hnone' : st'.file = none → cfg'.partEvery = none)
    (hhuge : Comp.run cfg sl D onMesh init b n i ≠ .error .huge) (hoff : Comp.run cfg sl D onMesh init b n i ≠ .error .offMesh) :
    (∃ s s', CppLoop.run cfg init n st = .ok s ∧ CppLoop.run cfg' init n st' = .ok s' ∧ SameCppEnd s s') ∨
      ∃ e, CppLoop.run cfg init n st = .error e ∧ CppLoop.run cfg' init n st' = .error e := by
  have k := C109_run h2 hc hm hs n init h hnone
  have k' := C109_run h2 hc' hm' hs' n init h' hnone'
  rw [comp_same_run hp] at k'
  cases hr : Comp.run cfg sl D onMesh init b n i with
  | error f =>
    rw [hr] at k k'
    cases f with
    | raises e => exact .inr ⟨e, k, k'⟩
    | huge => exact absurd hr hhuge
    | offMesh => exact absurd hr hoff
  | ok r =>
    obtain ⟨i0, is⟩ := r
    rw [hr] at k k'
    obtain ⟨-, s, e, o⟩ := k
    obtain ⟨-, s', e', o'⟩ := k'
    refine .inl ⟨s, s', e, e', comp_end_same ?_ o o'⟩
    rw [List.forall₂_same]
    exact fun j _ => ⟨rfl, rfl, List.forall₂_same.2 fun _ _ => ⟨rfl, rfl, rfl⟩, rfl, rfl⟩

theorem comp_steps_prefix {cfg : Cfg K V α σ φ} {sl D : Nat} {onMesh : α → Bool} (m k : Nat) {i : Ideal K V α σ}
    {is : List (Ideal K V α σ)} (h : Comp.steps cfg sl D onMesh (m + k) i = .ok is) :
    ∃ js, Comp.steps cfg sl D onMesh m i = .ok js ∧ js <+: is := by
  induction m generalizing i is with
  | zero => exact ⟨[], rfl, List.nil_prefix⟩
  | succ m ih =>
    rw [Nat.succ_add] at h
    unfold Comp.steps at h ⊢
    cases e : Comp.step cfg sl D onMesh i with
    | error f => rw [e] at h; cases h
    | ok i' =>
      rw [e] at h
      dsimp only at h ⊢
      cases e' : Comp.steps cfg sl D onMesh (m + k) i' with
      | error f => rw [e'] at h; cases h
      | ok l =>
        rw [e'] at h
        cases h
        obtain ⟨js, h1, h2⟩ := ih e'
        rw [h1]
        exact ⟨_, rfl, (List.prefix_cons_inj i').2 h2⟩

/-- C129 (number of steps).  If a simulation of `m + k` steps ends normally, so does the one of `m` steps,
and what it writes to the field file and the histories is what the longer one writes first. -/
theorem C129_longer {cfg : Cfg K V α σ φ} {onMesh : α → Bool} {d : Nat → Nat} {sl D C : Nat}
    (h2 : 2 ≤ sl) (hc : CppLoop.GoodEvery cfg) (hm : GoodMesh cfg onMesh d D C) {skip : Int} (hs : skip ≠ 0) (m k : Nat)
    (init : Option (List (String × List α))) {st : CppLoop.State K V α σ φ} {i : Ideal K V α σ} {b : List K}
    (h : CppLoop.Fresh sl D C skip st i b) (hnone : st.file = none → cfg.partEvery = none)
    {i0 : Ideal K V α σ} {is : List (Ideal K V α σ)} (hr : Comp.run cfg sl D onMesh init b (m + k) i = .ok (i0, is)) :
    ∃ s s', CppLoop.run cfg init m st = .ok s ∧ CppLoop.run cfg init (m + k) st = .ok s' ∧ s.phiLog <+: s'.phiLog ∧
      ∀ g g', s.hist = some g → s'.hist = some g' → st.hist.isSome = true → g.rows <+: g'.rows := by
  have a := C109_run h2 hc hm hs (m + k) init h hnone
  rw [hr] at a
  obtain ⟨-, s', e', o'⟩ := a
  have hr' : ∃ js, Comp.run cfg sl D onMesh init b m i = .ok (i0, js) ∧ js <+: is := by
    unfold Comp.run at hr ⊢
    cases e : Comp.start cfg sl D onMesh init b i with
    | error f => rw [e] at hr; cases hr
    | ok j =>
      rw [e] at hr
      dsimp only at hr ⊢
      cases e1 : Comp.steps cfg sl D onMesh (m + k) j with
      | error f => rw [e1] at hr; cases hr
      | ok l =>
        rw [e1] at hr
        cases hr
        obtain ⟨js, h1, h2⟩ := comp_steps_prefix m k e1
        rw [h1]
        exact ⟨js, rfl, h2⟩
  obtain ⟨js, hj, hpre⟩ := hr'
  have c := C109_run h2 hc hm hs m init h hnone
  rw [hj] at c
  obtain ⟨-, s, e, o⟩ := c
  refine ⟨s, s', e, e', ?_, ?_⟩
  · rw [o.phiLog, o'.phiLog]
    refine (List.prefix_append_right_inj _).2 ?_
    exact List.IsPrefix.map _ (List.IsPrefix.filter _ hpre)
  · intro g g' hg hg' h1
    obtain ⟨g1, k1, k2⟩ := o.hist h1
    obtain ⟨g2, l1, l2⟩ := o'.hist h1
    rw [k1] at hg
    rw [l1] at hg'
    cases hg
    cases hg'
    rw [k2, l2]
    exact List.IsPrefix.map _ ((List.prefix_cons_inj i0).2 (List.IsPrefix.filter _ hpre))

/-! ### The hypotheses are met -/

/-- The simulation with compiled code on the kite mesh, with other files written. -/
def quietCppCfg : Cfg ℚ ℚ KitePart ((Unit × Vec ℚ 2) × Scratch ℚ) (List (Vec ℚ 2)) :=
  { kiteCppCfg with partEvery := none, cellEvery := none, fieldEvery := some 2, quantities := [] }

/-- Before its first step, with segments of length `sl`. -/
def quietCppState (sl : Nat) : CppLoop.State ℚ ℚ KitePart ((Unit × Vec ℚ 2) × Scratch ℚ) (List (Vec ℚ 2)) :=
  { kiteCppState with
    sps := [⟨"e", CSAP.new sl (kitePart 0 0 0 0 0), -1, 1, 1, [0, 0, 0, 0], [0, 0]⟩]
    file := none, hist := none }

theorem quietCpp_every : CppLoop.GoodEvery quietCppCfg := ⟨by simp [quietCppCfg], by simp [quietCppCfg], by simp [quietCppCfg]⟩

theorem quietCpp_mesh : GoodMesh quietCppCfg (onCells (kite false)) (fun k => k) (3 + 1) 2 := by
  obtain ⟨a, b, c⟩ := kiteCpp_mesh
  exact ⟨a, b, c⟩

theorem quietCpp_fresh (sl : Nat) (h : 0 < sl) : CppLoop.Fresh sl (3 + 1) 2 2 (quietCppState sl) kiteCppIdeal [0, 0, 0, 0] := by
  refine ⟨rfl, rfl, rfl, rfl, rfl, ?_, ?_, .inl rfl, .inl rfl, rfl, rfl⟩
  · have h := CppProgram.start_rel (sl := sl) h (kitePart 0 0 0 0 0) [true]
    cases h with
    | cons h _ => exact .cons ⟨rfl, rfl, rfl, rfl, h, rfl, rfl⟩ .nil
  · intro p hp
    simp only [kiteCppIdeal, List.mem_singleton] at hp
    rw [hp]

theorem quietCpp_same : SamePhysics kiteCppCfg quietCppCfg := ⟨rfl, rfl, rfl, rfl, rfl, rfl, rfl, rfl, rfl⟩

theorem kite_same : SameState kiteCppIdeal kiteCppIdeal := ⟨rfl, rfl, List.forall₂_same.2 fun _ _ => ⟨rfl, rfl, rfl⟩, rfl, rfl⟩

-- C129_segments: a plasma on the kite mesh, with segments of 2 and of `sl` particles and different files, for any number of steps.
example (n sl : Nat) (h : 2 ≤ sl) : ∃ s s', CppLoop.run kiteCppCfg (some kiteInit) n kiteCppState = .ok s ∧
    CppLoop.run quietCppCfg (some kiteInit) n (quietCppState sl) = .ok s' ∧ SameCppEnd s s' := by
  obtain ⟨i0, is, hr⟩ := kiteCpp_runs n
  obtain ⟨s, e, h' | ⟨s', e', h'⟩⟩ := C129_segments quietCpp_same (le_refl 2) h kiteCpp_every quietCpp_every kiteCpp_mesh quietCpp_mesh (skip := 2) (skip' := 2)
    (by decide) (by decide) n (some kiteInit) kiteCpp_fresh (quietCpp_fresh sl (by omega)) kite_same (by simp [kiteCppState]) (fun _ => rfl) hr
  · exact absurd rfl h'.1
  · exact ⟨s, s', e, e', h'⟩

-- C129_output: the same with equal segments.
example (n : Nat) : (∃ s s', CppLoop.run kiteCppCfg (some kiteInit) n kiteCppState = .ok s ∧
    CppLoop.run quietCppCfg (some kiteInit) n (quietCppState 2) = .ok s' ∧ SameCppEnd s s') ∨
    ∃ e, CppLoop.run kiteCppCfg (some kiteInit) n kiteCppState = .error e ∧ CppLoop.run quietCppCfg (some kiteInit) n (quietCppState 2) = .error e := by
  obtain ⟨i0, is, hr⟩ := kiteCpp_runs n
  exact C129_output quietCpp_same (le_refl 2) kiteCpp_every quietCpp_every kiteCpp_mesh quietCpp_mesh (skip := 2) (skip' := 2) (by decide) (by decide)
    n (some kiteInit) kiteCpp_fresh (quietCpp_fresh 2 (by decide)) (by simp [kiteCppState]) (fun _ => rfl) (by rw [hr]; simp) (by rw [hr]; simp)

-- C129_longer: five steps, and more.
example (k : Nat) : ∃ s s', CppLoop.run kiteCppCfg (some kiteInit) 5 kiteCppState = .ok s ∧
    CppLoop.run kiteCppCfg (some kiteInit) (5 + k) kiteCppState = .ok s' ∧ s.phiLog <+: s'.phiLog := by
  obtain ⟨i0, is, hr⟩ := kiteCpp_runs (5 + k)
  obtain ⟨s, s', e, e', h, -⟩ := C129_longer (le_refl 2) kiteCpp_every kiteCpp_mesh (skip := 2) (by decide) 5 k (some kiteInit) kiteCpp_fresh
    (by simp [kiteCppState]) hr
  exact ⟨s, s', e, e', h⟩

/-- One electron per step, at rest. -/
def restSource : Src ℚ SimPart (Unit × Vec ℚ 1) :=
  ⟨"mid", "e", 1, fun _ _ side => .ok (side, [demoPart (5 / 4) 0 1 false])⟩

/-- Two electrons at rest and one that leaves in the first step. -/
def restInit : List (String × List SimPart) :=
  [("e", [demoPart (3 / 2) 0 1 false, demoPart (3 / 2) 0 1 false, demoPart (5 / 2) 9 2 false])]

/-- The example of C109 with segments of length `sl`. -/
def cppSimStateOf (sl : Nat) : CppLoop.State ℚ ℚ SimPart ((Unit × Vec ℚ 1) × Scratch ℚ) (List ℚ) :=
  { cppSimState with sps := [⟨"e", CSAP.new sl (demoPart 0 0 0 false), -1, 1, 1, [0, 0, 0, 0], [0, 0, 0]⟩] }

/-- With a source the segment length matters: if the last particle of a species is lost and the others
fill whole segments, the source aborts; with segments of another length the same simulation ends normally. -/
theorem C129_false_segments :
    aborts (CppLoop.run (cppSimCfg [restSource]) (some restInit) 1 (cppSimStateOf 2)) = true ∧
    (cppSeen (CppLoop.run (cppSimCfg [restSource]) (some restInit) 1 (cppSimStateOf 3))).map (·.1) =
      some [[(1, 0), (1, 0), (1, 0)]] := by decide +kernel

end Dt
