import Verif.Spec.TimeLoop

/-! # Properties of particles that a simulation on lists preserves -/

set_option linter.unusedSectionVars false

namespace Dt
namespace TimeLoop
open Spec (LState Pop Ideal Fault)
variable {K V α σ φ : Type}

/-- A result has `P`, an early end has `Q`. -/
def Res {A : Type} (P : A → Prop) (Q : Fault → Prop) : Except Fault A → Prop
  | .ok a => P a
  | .error f => Q f

/-- All particles of all species. -/
def AllOf (P : α → Prop) (ps : List (Pop K V α)) : Prop := ∀ p ∈ ps, ∀ x ∈ p.st.items, P x

/-- What a mover does to particles with `P`. -/
def Keeps (P : α → Prop) (Q : Fault → Prop) (adv : Adv σ α) : Prop :=
  ∀ st i o b x, P x → (∀ st' y, adv st i o b x = .ok (st', y, true) → P y) ∧
    ∀ e, adv st i o b x = .error e → Q (.raises e)

theorem pass_res {P : α → Prop} {Q : Fault → Prop} {adv : Adv σ α} (h : Keeps P Q adv) {xs : List α}
    (hx : ∀ x ∈ xs, P x) (st : σ) (i o : Nat) :
    (∀ st' ys, Spec.pass adv st i o xs = .ok (st', ys) → ∀ y ∈ ys, P y) ∧
    ∀ e, Spec.pass adv st i o xs = .error e → Q (.raises e) := by
  induction xs generalizing st i o with
  | nil =>
    refine ⟨fun st' ys e => ?_, fun e he => by cases he⟩
    simp only [Spec.pass, Except.ok.injEq, Prod.mk.injEq] at e
    rw [← e.2]; simp
  | cons x xs ih =>
    have hk := h st i o (decide (o ≠ i)) x (hx x (by simp))
    have ih := fun st i o => ih (fun y hy => hx y (by simp [hy])) st i o
    simp only [Spec.pass]
    split
    · rename_i e he
      refine ⟨fun _ _ hc => (by cases hc), fun e' he' => ?_⟩
      cases he'
      exact hk.2 _ he
    · rename_i st1 y he
      have hy := hk.1 _ _ he
      split
      · rename_i e he2
        refine ⟨fun _ _ hc => (by cases hc), fun e' he' => ?_⟩
        cases he'
        exact (ih _ _ _).2 _ he2
      · rename_i st2 ys he2
        refine ⟨fun st' zs hc => ?_, fun e' he' => by cases he'⟩
        cases hc
        intro z hz
        rcases List.mem_cons.1 hz with rfl | hz
        · exact hy
        · exact (ih _ _ _).1 _ _ he2 z hz
    · exact ih _ _ _

variable [Field K] [DecidableEq K]

theorem moveAll_res {P : α → Prop} {Q : Fault → Prop} (sl : Nat) {mv : String → Adv σ α}
    (hl : Q .allLost) {ps : List (Pop K V α)}
    (h : ∀ p ∈ ps, p.charge ≠ 0 → Keeps P Q (mv p.name)) (hp : AllOf P ps)
    (side : σ) :
    Res (fun r => AllOf P r.1 ∧ r.1.map (·.name) = ps.map (·.name) ∧
      r.1.map (·.charge) = ps.map (·.charge)) Q (Spec.moveAll sl mv ps side) := by
  induction ps generalizing side with
  | nil => exact ⟨hp, rfl, rfl⟩
  | cons p ps ih =>
    have hP : Res (fun r => (∀ x ∈ r.1.st.items, P x) ∧ r.1.name = p.name ∧ r.1.charge = p.charge) Q
        (Spec.movePop sl mv p side) := by
      unfold Spec.movePop
      split
      · exact ⟨hp p (by simp), rfl, rfl⟩
      · rename_i hne
        have := pass_res (h p (by simp) (fun hc => hne (.inl hc))) (hp p (by simp)) side 0 0
        split
        · rename_i e he; exact this.2 _ he
        · exact hl
        · rename_i s' y ys he; exact ⟨this.1 _ _ he, rfl, rfl⟩
    simp only [Spec.moveAll]
    split
    · rename_i f he; rw [he] at hP; exact hP
    · rename_i p' side' he
      rw [he] at hP
      have ih := ih (fun q hq => h q (by simp [hq])) (fun q hq => hp q (by simp [hq])) side'
      split
      · rename_i f he2; rw [he2] at ih; exact ih
      · rename_i ps' side'' he2
        rw [he2] at ih
        obtain ⟨q1, q2, q3⟩ := hP
        obtain ⟨r1, r2, r3⟩ := ih
        refine ⟨?_, congrArg₂ List.cons q2 r2, congrArg₂ List.cons q3 r3⟩
        intro q hq
        rcases List.mem_cons.1 hq with rfl | hq
        · exact q1
        · exact r1 q hq

theorem appendAll_res {P : α → Prop} {Q : Fault → Prop} (sl : Nat) {st : LState α} {xs : List α}
    (ha : st.stale = false ∨ Q (.raises .assertion)) (hs : ∀ x ∈ st.items, P x) (hx : ∀ x ∈ xs, P x) :
    Res (fun r => (∀ x ∈ r.items, P x) ∧ r.stale = st.stale) Q (st.appendAll sl xs) := by
  induction xs generalizing st with
  | nil => exact ⟨hs, rfl⟩
  | cons x xs ih =>
    simp only [LState.appendAll]
    split
    · rename_i hc
      rcases ha with ha | ha
      · rw [ha] at hc; simp at hc
      · exact ha
    · refine ih (st := ⟨st.items ++ [x], st.stale⟩) ha ?_ (fun y hy => hx y (by simp [hy]))
      intro y hy
      rcases List.mem_append.1 hy with hy | hy
      · exact hs y hy
      · rw [List.mem_singleton.1 hy]; exact hx x (by simp)

theorem appendTo_res {P : α → Prop} {Q : Fault → Prop} (sl : Nat) {name : String} {xs : List α}
    {ps : List (Pop K V α)} (hn : name ∈ ps.map (·.name) ∨ Q (.raises .key))
    (ha : (∀ p ∈ ps, p.st.stale = false) ∨ Q (.raises .assertion)) (hp : AllOf P ps)
    (hx : ∀ x ∈ xs, P x) :
    Res (fun r => AllOf P r ∧ r.map (·.name) = ps.map (·.name) ∧
      r.map (·.charge) = ps.map (·.charge) ∧
      r.map (·.st.stale) = ps.map (·.st.stale)) Q (Spec.appendTo sl name xs ps) := by
  induction ps with
  | nil =>
    rcases hn with hn | hn
    · cases hn
    · exact hn
  | cons p ps ih =>
    simp only [Spec.appendTo]
    split
    · have := appendAll_res sl (P := P) (Q := Q) (st := p.st) (xs := xs) (ha.imp (fun k => k p (by simp)) id)
        (hp p (by simp)) hx
      split
      · rename_i f he; rw [he] at this; exact this
      · rename_i st he
        rw [he] at this
        refine ⟨?_, by simp, by simp, by simp [this.2]⟩
        intro q hq
        rcases List.mem_cons.1 hq with rfl | hq
        · exact this.1
        · exact hp q (by simp [hq])
    · rename_i hne
      have ih := ih (hn.imp (fun k => by
          simp only [List.map_cons, List.mem_cons] at k
          exact k.resolve_left (fun hc => hne hc.symm)) id)
        (ha.imp (fun k q hq => k q (by simp [hq])) id) (fun q hq => hp q (by simp [hq]))
      split
      · rename_i f he; rw [he] at ih; exact ih
      · rename_i ps' he
        rw [he] at ih
        refine ⟨?_, by simp [ih.2.1], by simp [ih.2.2.1], by simp [ih.2.2.2]⟩
        intro q hq
        rcases List.mem_cons.1 hq with rfl | hq
        · exact hp q (by simp)
        · exact ih.1 q hq

/-- What the sources do. -/
def GoodSrc (P : α → Prop) (Q : Fault → Prop) (names : List String) (s : Src K α σ) : Prop :=
  (s.interval ≠ 0 ∨ Q (.raises .zerodiv)) ∧ (s.species ∈ names ∨ Q (.raises .key)) ∧
    Q (.raises .assertion) ∧ ∀ count time side,
      (∀ side' xs, s.make count time side = .ok (side', xs) → ∀ x ∈ xs, P x) ∧
      ∀ e, s.make count time side = .error e → Q (.raises e)

theorem createAll_res {P : α → Prop} {Q : Fault → Prop} (sl : Nat) (count : Int) (time : K)
    {ss : List (Src K α σ)} {ps : List (Pop K V α)}
    (hs : ∀ s ∈ ss, GoodSrc P Q (ps.map (·.name)) s) (hp : AllOf P ps) (side : σ) :
    Res (fun r => AllOf P r.1 ∧ r.1.map (·.name) = ps.map (·.name) ∧
      r.1.map (·.charge) = ps.map (·.charge)) Q
      (Spec.createAll sl count time ss ps side) := by
  induction ss generalizing ps side with
  | nil => exact ⟨hp, rfl, rfl⟩
  | cons s ss ih =>
    obtain ⟨h0, h1, h2, h3⟩ := hs s (by simp)
    obtain ⟨h3, h4⟩ := h3 count time side
    simp only [Spec.createAll]
    split
    · rename_i hc
      exact h0.resolve_left (fun k => k hc)
    · split
      · split
        · rename_i e he; exact h4 _ he
        · rename_i side' xs he
          have ha := appendTo_res sl (P := P) (Q := Q) h1 (.inr h2) hp (h3 _ _ he)
          split
          · rename_i f he2; rw [he2] at ha; exact ha
          · rename_i ps' he2
            rw [he2] at ha
            have := ih (ps := ps') (fun t ht => by rw [ha.2.1]; exact hs t (by simp [ht])) ha.1 side'
            rwa [ha.2.1, ha.2.2.1] at this
      · exact ih (fun t ht => hs t (by simp [ht])) hp side

theorem appendGroups_res {P : α → Prop} {Q : Fault → Prop} (sl : Nat) {gs : List (String × List α)}
    {ps : List (Pop K V α)} (hn : ∀ g ∈ gs, g.1 ∈ ps.map (·.name) ∨ Q (.raises .key))
    (hs : ∀ p ∈ ps, p.st.stale = false) (hp : AllOf P ps) (hg : ∀ g ∈ gs, ∀ x ∈ g.2, P x) :
    Res (fun r => AllOf P r ∧ r.map (·.name) = ps.map (·.name) ∧
      r.map (·.charge) = ps.map (·.charge)) Q (Spec.appendGroups sl gs ps) := by
  induction gs generalizing ps with
  | nil => exact ⟨hp, rfl, rfl⟩
  | cons g gs ih =>
    simp only [Spec.appendGroups]
    have ha := appendTo_res sl (P := P) (Q := Q) (hn g (by simp)) (.inl hs) hp (hg g (by simp))
    split
    · rename_i f he; rw [he] at ha; exact ha
    · rename_i ps' he
      rw [he] at ha
      have := ih (ps := ps') (fun k hk => by rw [ha.2.1]; exact hn k (by simp [hk]))
        (fun q hq => by
          have : q.st.stale ∈ ps'.map (·.st.stale) := List.mem_map_of_mem hq
          rw [ha.2.2.2] at this
          obtain ⟨r, hr, e⟩ := List.mem_map.1 this
          rw [← e]; exact hs r hr) ha.1 (fun k hk => hg k (by simp [hk]))
      rwa [ha.2.1, ha.2.2.1] at this

theorem settle_res {P : α → Prop} {Q : Fault → Prop} (cfg : Cfg K V α σ φ) (D : Nat) {onMesh : α → Bool}
    (hm : (∀ x, P x → onMesh x = true) ∨ Q .offMesh) (count : Int) (time : K) {ps : List (Pop K V α)}
    (hp : AllOf P ps) (side : σ) :
    Res (fun i : Ideal K V α σ => AllOf P i.pops ∧ i.pops.map (·.name) = ps.map (·.name) ∧
      i.pops.map (·.charge) = ps.map (·.charge)) Q
      (Spec.settle cfg D onMesh count time ps side) := by
  unfold Spec.settle
  split
  · refine ⟨?_, by simp [Spec.looked, Function.comp_def], by simp [Spec.looked, Function.comp_def]⟩
    intro q hq
    obtain ⟨r, hr, rfl⟩ := List.mem_map.1 hq
    exact hp r hr
  · rename_i hc
    refine hm.resolve_left (fun k => hc ?_)
    rw [List.all_eq_true]
    intro q hq
    rw [List.all_eq_true]
    exact fun x hx => k x (hp q hq x hx)

/-- What is asked of a simulation for `P` to hold of all particles. -/
structure Good (P : α → Prop) (Q : Fault → Prop) (cfg : Cfg K V α σ φ) (onMesh : α → Bool)
    (names : List String) (moves : String → Prop) : Prop where
  lost : Q .allLost
  mesh : (∀ x, P x → onMesh x = true) ∨ Q .offMesh
  src : ∀ s ∈ cfg.sources, GoodSrc P Q names s
  move : ∀ sn ∈ names, moves sn → ∀ f c t, Keeps P Q (cfg.move sn f c t)

/-- Only species selected by `moves` are charged. -/
def ChargedIn (moves : String → Prop) (ps : List (Pop K V α)) : Prop :=
  ∀ p ∈ ps, p.charge ≠ 0 → moves p.name

theorem chargedIn_of {moves : String → Prop} {ps ps' : List (Pop K V α)} (h : ChargedIn moves ps)
    (hn : ps'.map (·.name) = ps.map (·.name)) (hc : ps'.map (·.charge) = ps.map (·.charge)) :
    ChargedIn moves ps' := by
  induction ps generalizing ps' with
  | nil => cases ps' with
    | nil => exact h
    | cons p ps' => simp at hn
  | cons p ps ih =>
    cases ps' with
    | nil => simp at hn
    | cons p' ps' =>
      simp only [List.map_cons, List.cons.injEq] at hn hc
      intro q hq
      rcases List.mem_cons.1 hq with rfl | hq
      · rw [hn.1, hc.1]; exact h p (by simp)
      · exact ih (fun r hr => h r (by simp [hr])) hn.2 hc.2 q hq

/-- The invariant. -/
structure Inv (P : α → Prop) (names : List String) (moves : String → Prop) (ps : List (Pop K V α)) : Prop where
  all : AllOf P ps
  names : ps.map (·.name) = names
  charged : ChargedIn moves ps

theorem step_res {P : α → Prop} {Q : Fault → Prop} {cfg : Cfg K V α σ φ} {onMesh : α → Bool}
    {names : List String} {moves : String → Prop} (h : Good P Q cfg onMesh names moves) (sl D : Nat)
    {i : Ideal K V α σ} (hi : Inv P names moves i.pops) :
    Res (fun j : Ideal K V α σ => Inv P names moves j.pops) Q (i.step cfg sl D onMesh) := by
  simp only [Ideal.step]
  have h1 := moveAll_res (P := P) (Q := Q) sl
    (mv := fun sn => cfg.move sn (cfg.fieldOf i.phi) (i.count + 1) (i.time + cfg.dt)) h.lost (ps := i.pops)
    (fun p hp hc => h.move p.name (by rw [← hi.names]; exact List.mem_map_of_mem hp)
      (hi.charged p hp hc) _ _ _) hi.all i.side
  split
  · rename_i f he; rw [he] at h1; exact h1
  · rename_i ps side he
    rw [he] at h1
    have h2 := createAll_res (P := P) (Q := Q) sl (i.count + 1) (i.time + cfg.dt) (ss := cfg.sources)
      (ps := ps) (by rw [h1.2.1, hi.names]; exact h.src) h1.1 side
    split
    · rename_i f he2; rw [he2] at h2; exact h2
    · rename_i ps' side' he2
      rw [he2] at h2
      have h3 := settle_res (P := P) (Q := Q) cfg D h.mesh (i.count + 1) (i.time + cfg.dt) h2.1 side'
      cases hs : Spec.settle cfg D onMesh (i.count + 1) (i.time + cfg.dt) ps' side' with
      | error f => simp only [hs] at h3; exact h3
      | ok j =>
          simp only [hs] at h3
          exact ⟨h3.1, by rw [h3.2.1, h2.2.1, h1.2.1, hi.names],
            chargedIn_of hi.charged (by rw [h3.2.1, h2.2.1, h1.2.1]) (by rw [h3.2.2, h2.2.2, h1.2.2])⟩

theorem steps_res {P : α → Prop} {Q : Fault → Prop} {cfg : Cfg K V α σ φ} {onMesh : α → Bool}
    {names : List String} {moves : String → Prop} (h : Good P Q cfg onMesh names moves) (sl D : Nat)
    (n : Nat) {i : Ideal K V α σ} (hi : Inv P names moves i.pops) :
    Res (fun js : List (Ideal K V α σ) => ∀ j ∈ js, Inv P names moves j.pops) Q
      (Ideal.steps cfg sl D onMesh n i) := by
  induction n generalizing i with
  | zero => intro j hj; cases hj
  | succ n ih =>
    simp only [Ideal.steps]
    have h1 := step_res h sl D hi
    split
    · rename_i f he; rw [he] at h1; exact h1
    · rename_i i' he
      rw [he] at h1
      have h2 := ih h1
      split
      · rename_i f he2; rw [he2] at h2; exact h2
      · rename_i is he2
        rw [he2] at h2
        intro j hj
        rcases List.mem_cons.1 hj with rfl | hj
        · exact h1
        · exact h2 j hj

/-- The particles given at the start. -/
def GoodInit (P : α → Prop) (Q : Fault → Prop) (names : List String)
    (init : Option (List (String × List α))) : Prop :=
  ∀ gs, init = some gs → ∀ g ∈ gs, (g.1 ∈ names ∨ Q (.raises .key)) ∧ ∀ x ∈ g.2, P x

theorem run_res {P : α → Prop} {Q : Fault → Prop} {cfg : Cfg K V α σ φ} {onMesh : α → Bool}
    {names : List String} {moves : String → Prop} (h : Good P Q cfg onMesh names moves) (sl D : Nat)
    (n : Nat) {init : Option (List (String × List α))} (hg : GoodInit P Q names init)
    (b : List K) {i : Ideal K V α σ} (hi : Inv P names moves i.pops)
    (hs : ∀ p ∈ i.pops, p.st.stale = false) :
    Res (fun r : Ideal K V α σ × List (Ideal K V α σ) => ∀ j ∈ r.1 :: r.2, Inv P names moves j.pops) Q
      (Ideal.run cfg sl D onMesh init b n i) := by
  unfold Ideal.run
  have h0 : Res (fun j : Ideal K V α σ => Inv P names moves j.pops) Q
      (i.start cfg sl D onMesh init b) := by
    unfold Ideal.start
    cases hinit : init with
    | none => exact hi
    | some gs =>
      simp only
      have hg := hg gs hinit
      have h1 := appendGroups_res (P := P) (Q := Q) sl (gs := gs) (ps := i.pops)
        (fun g hgg => by rw [hi.names]; exact (hg g hgg).1) hs hi.all (fun g hgg => (hg g hgg).2)
      split
      · rename_i f he; rw [he] at h1; exact h1
      · rename_i ps he
        rw [he] at h1
        have h3 := settle_res (P := P) (Q := Q) cfg D h.mesh i.count i.time h1.1 i.side
        cases hst : Spec.settle cfg D onMesh i.count i.time ps i.side with
        | error f => rw [hst] at h3; exact h3
        | ok j =>
          rw [hst] at h3
          exact ⟨h3.1, by rw [h3.2.1, h1.2.1, hi.names],
            chargedIn_of hi.charged (by rw [h3.2.1, h1.2.1]) (by rw [h3.2.2, h1.2.2])⟩
  split
  · rename_i f he; rw [he] at h0; exact h0
  · rename_i i0 he
    rw [he] at h0
    have h2 := steps_res h sl D n h0
    split
    · rename_i f he2; rw [he2] at h2; exact h2
    · rename_i is he2
      rw [he2] at h2
      intro j hj
      rcases List.mem_cons.1 hj with rfl | hj
      · exact h0
      · exact h2 j hj

end TimeLoop
end Dt
