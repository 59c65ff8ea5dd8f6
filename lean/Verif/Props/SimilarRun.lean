import Verif.Props.Similar
import Verif.Props.Permute
import Verif.Model.UserBC

/-!
# Units, origin and direction of the axes do not matter, on any mesh: whole simulations (C130)
-/

set_option linter.unusedSectionVars false

namespace Dt
open Spec Poisson Dt.Topology TimeLoop
variable {K V : Type} [Field K] [LinearOrder K] [IsStrictOrderedRing K]

/-- Both end well with related results, or both fail with related errors. -/
inductive Spec.Both {ε A B : Type} (Q : ε → ε → Prop) (R : A → B → Prop) : Except ε A → Except ε B → Prop
  | ok {a b} : R a b → Both Q R (.ok a) (.ok b)
  | err {e e'} : Q e e' → Both Q R (.error e) (.error e')

/-- Errors of the specification. -/
inductive Spec.FaultAlike (Q : Err → Err → Prop) : Fault → Fault → Prop
  | raises {e e'} : Q e e' → FaultAlike Q (.raises e) (.raises e')
  | allLost : FaultAlike Q .allLost .allLost
  | offMesh : FaultAlike Q .offMesh .offMesh

inductive Spec.CompFaultAlike (Q : Err → Err → Prop) : Comp.Fault → Comp.Fault → Prop
  | raises {e e'} : Q e e' → CompFaultAlike Q (.raises e) (.raises e')
  | huge : CompFaultAlike Q .huge .huge
  | offMesh : CompFaultAlike Q .offMesh .offMesh

section
variable {α σ σ' φ : Type}

/-- How a simulation is seen in other coordinates: time, charges, masses, potentials, particles and side states. -/
structure Spec.Lens (K α σ σ' : Type) where
  time : K
  charge : K
  mass : K
  volt : K → K
  part : α → α
  side : σ → σ' → Prop

variable (W : Lens K α σ σ') (Q : Err → Err → Prop)

def Spec.Lens.pop (p : Pop K V α) : Pop K V α :=
  { p with charge := W.charge * p.charge, mass := W.mass * p.mass, st := ⟨p.st.items.map W.part, p.st.stale⟩ }

/-- A state and how it is seen. -/
structure Spec.Lens.Sees (i : Ideal K V α σ) (i' : Ideal K V α σ') : Prop where
  count : i'.count = i.count
  time : i'.time = W.time * i.time
  pops : i'.pops = i.pops.map W.pop
  side : W.side i.side i'.side
  phi : i'.phi = i.phi.map W.volt

/-- A simulation and how it is seen. -/
structure Spec.Lens.SeesCfg (D : Nat) (onMesh onMesh' : α → Bool) (cfg : Cfg K V α σ φ) (cfg' : Cfg K V α σ' φ) : Prop where
  charge : W.charge ≠ 0
  dt : cfg'.dt = W.time * cfg.dt
  on : ∀ q, onMesh' (W.part q) = onMesh q
  move : ∀ sn phi count time st st' i o b q, W.side st st' →
    Both Q (fun r r' => W.side r.1 r'.1 ∧ r'.2.1 = W.part r.2.1 ∧ r'.2.2 = r.2.2)
      (cfg.move sn (cfg.fieldOf phi) count time st i o b q) (cfg'.move sn (cfg'.fieldOf (phi.map W.volt)) count (W.time * time) st' i o b (W.part q))
  sources : List.Forall₂ (fun s s' => s'.species = s.species ∧ s'.interval = s.interval ∧ ∀ count time st st', W.side st st' →
    Both Q (fun r r' => W.side r.1 r'.1 ∧ r'.2 = r.2.map W.part) (s.make count time st) (s'.make count (W.time * time) st')) cfg.sources cfg'.sources
  potential : ∀ pops, potential cfg' D (pops.map W.pop) = (potential cfg D pops).map W.volt

end

section
variable {α σ σ' φ : Type} {W : Lens K α σ σ'} {Q : Err → Err → Prop}

theorem seen_pass {adv : Adv σ α} {adv' : Adv σ' α} (h : ∀ st st' i o b q, W.side st st' →
      Both Q (fun r r' => W.side r.1 r'.1 ∧ r'.2.1 = W.part r.2.1 ∧ r'.2.2 = r.2.2) (adv st i o b q) (adv' st' i o b (W.part q)))
    (xs : List α) {st : σ} {st' : σ'} (hs : W.side st st') (i o : Nat) :
    Both Q (fun r r' => W.side r.1 r'.1 ∧ r'.2 = r.2.map W.part) (pass adv st i o xs) (pass adv' st' i o (xs.map W.part)) := by
  induction xs generalizing st st' i o with
  | nil => exact .ok ⟨hs, rfl⟩
  | cons q xs ih =>
    rw [List.map_cons]
    unfold pass
    have k := h st st' i o (decide (o ≠ i)) q hs
    generalize adv st i o (decide (o ≠ i)) q = r at k
    generalize adv' st' i o (decide (o ≠ i)) (W.part q) = r' at k
    cases k with
    | err e => exact .err e
    | @ok a b h =>
      obtain ⟨s1, q1, k1⟩ := a
      obtain ⟨s2, q2, k2⟩ := b
      obtain ⟨h1, h2, h3⟩ := h
      dsimp only at h1 h2 h3
      subst h2 h3
      cases k2 with
      | true =>
        dsimp only
        have k := ih h1 (i + 1) (o + 1)
        generalize pass adv s1 (i + 1) (o + 1) xs = r at k
        generalize pass adv' s2 (i + 1) (o + 1) (xs.map W.part) = r' at k
        cases k with
        | err e => exact .err e
        | ok h => exact .ok ⟨h.1, by rw [h.2]; rfl⟩
      | false => exact ih h1 (i + 1) o

theorem seen_flag {adv : Adv σ α} {adv' : Adv σ' α} (h : ∀ st st' i o b q, W.side st st' →
      Both Q (fun r r' => W.side r.1 r'.1 ∧ r'.2.1 = W.part r.2.1 ∧ r'.2.2 = r.2.2) (adv st i o b q) (adv' st' i o b (W.part q)))
    (xs : List α) {st : σ} {st' : σ'} (hs : W.side st st') (i o : Nat) :
    lastFlag adv' st' i o (xs.map W.part) = lastFlag adv st i o xs := by
  induction xs generalizing st st' i o with
  | nil => rfl
  | cons q xs ih =>
    rw [List.map_cons]
    unfold lastFlag
    have k := h st st' i o (decide (o ≠ i)) q hs
    generalize adv st i o (decide (o ≠ i)) q = r at k
    generalize adv' st' i o (decide (o ≠ i)) (W.part q) = r' at k
    cases k with
    | err e => rfl
    | @ok a b h =>
      obtain ⟨s1, q1, k1⟩ := a
      obtain ⟨s2, q2, k2⟩ := b
      obtain ⟨h1, h2, h3⟩ := h
      dsimp only at h1 h2 h3
      subst h2 h3
      dsimp only
      rw [ih h1]

theorem seen_append (sl : Nat) (st : LState α) (xs : List α) :
    LState.appendAll sl ⟨st.items.map W.part, st.stale⟩ (xs.map W.part) =
      (LState.appendAll sl st xs).map (fun st => ⟨st.items.map W.part, st.stale⟩) := by
  induction xs generalizing st with
  | nil => rfl
  | cons x xs ih =>
    rw [List.map_cons]
    unfold LState.appendAll
    simp only [List.length_map, ne_eq, List.map_eq_nil_iff]
    split
    · rfl
    · rw [← ih ⟨st.items ++ [x], st.stale⟩]
      simp

theorem seen_appendTo (sl : Nat) (name : String) (xs : List α) (ps : List (Pop K V α)) :
    appendTo sl name (xs.map W.part) (ps.map W.pop) = (appendTo sl name xs ps).map (List.map W.pop) := by
  induction ps with
  | nil => rfl
  | cons p ps ih =>
    rw [List.map_cons]
    unfold appendTo
    show (if p.name = name then _ else _) = Except.map _ (if p.name = name then _ else _)
    split
    · show (match LState.appendAll sl ⟨p.st.items.map W.part, p.st.stale⟩ (xs.map W.part) with | .error f => _ | .ok st => _) = _
      rw [seen_append]
      cases p.st.appendAll sl xs <;> rfl
    · rw [ih]
      cases appendTo sl name xs ps <;> rfl

theorem seen_groups (sl : Nat) (gs : List (String × List α)) (ps : List (Pop K V α)) :
    appendGroups sl (gs.map (fun a => (a.1, a.2.map W.part))) (ps.map W.pop) = (appendGroups sl gs ps).map (List.map W.pop) := by
  induction gs generalizing ps with
  | nil => rfl
  | cons a gs ih =>
    rw [List.map_cons]
    unfold appendGroups
    rw [seen_appendTo]
    cases appendTo sl a.1 a.2 ps with
    | error e => rfl
    | ok ps' => exact ih ps'

variable {cfg : Cfg K V α σ φ} {cfg' : Cfg K V α σ' φ} {D sl : Nat} {onMesh onMesh' : α → Bool}

theorem seen_movePop (hc : W.charge ≠ 0) {mv : String → Adv σ α} {mv' : String → Adv σ' α} (h : ∀ sn st st' i o b q, W.side st st' →
      Both Q (fun r r' => W.side r.1 r'.1 ∧ r'.2.1 = W.part r.2.1 ∧ r'.2.2 = r.2.2) (mv sn st i o b q) (mv' sn st' i o b (W.part q)))
    (p : Pop K V α) {st : σ} {st' : σ'} (hs : W.side st st') :
    Both (FaultAlike Q) (fun r r' => r'.1 = W.pop r.1 ∧ W.side r.2 r'.2) (movePop sl mv p st) (movePop sl mv' (W.pop p) st') := by
  unfold movePop
  have e1 : (W.pop p).charge = 0 ↔ p.charge = 0 := by
    show W.charge * p.charge = 0 ↔ _
    rw [mul_eq_zero, or_iff_right hc]
  have e2 : (W.pop p).st.items = [] ↔ p.st.items = [] := List.map_eq_nil_iff
  simp only [e1, e2]
  split
  · exact .ok ⟨rfl, hs⟩
  · have k := seen_pass (h p.name) p.st.items hs 0 0
    have k2 := seen_flag (h p.name) p.st.items hs 0 0
    show Both _ _ _ (match pass (mv' p.name) st' 0 0 (p.st.items.map W.part) with | .error e => _ | .ok (_, []) => _ | .ok (side', y :: ys) => _)
    generalize pass (mv p.name) st 0 0 p.st.items = r at k
    generalize pass (mv' p.name) st' 0 0 (p.st.items.map W.part) = r' at k
    cases k with
    | err e => exact .err (.raises e)
    | @ok a b h =>
      obtain ⟨s1, ys⟩ := a
      obtain ⟨s2, ys'⟩ := b
      obtain ⟨h1, h2⟩ := h
      dsimp only at h1 h2
      subst h2
      cases ys with
      | nil => exact .err .allLost
      | cons y ys =>
        refine .ok ⟨?_, h1⟩
        show ({ W.pop p with st := _ } : Pop K V α) = _
        unfold Lens.pop
        simp only [Pop.mk.injEq, true_and, LState.mk.injEq, List.map_cons]
        rw [k2]
        simp

theorem seen_moveAll (hc : W.charge ≠ 0) {mv : String → Adv σ α} {mv' : String → Adv σ' α} (h : ∀ sn st st' i o b q, W.side st st' →
      Both Q (fun r r' => W.side r.1 r'.1 ∧ r'.2.1 = W.part r.2.1 ∧ r'.2.2 = r.2.2) (mv sn st i o b q) (mv' sn st' i o b (W.part q)))
    (ps : List (Pop K V α)) {st : σ} {st' : σ'} (hs : W.side st st') :
    Both (FaultAlike Q) (fun r r' => r'.1 = r.1.map W.pop ∧ W.side r.2 r'.2) (moveAll sl mv ps st) (moveAll sl mv' (ps.map W.pop) st') := by
  induction ps generalizing st st' with
  | nil => exact .ok ⟨rfl, hs⟩
  | cons p ps ih =>
    rw [List.map_cons]
    unfold moveAll
    have k := seen_movePop (sl := sl) hc h p hs
    generalize movePop sl mv p st = r at k
    generalize movePop sl mv' (W.pop p) st' = r' at k
    cases k with
    | err e => exact .err e
    | ok hk =>
      have k := ih hk.2
      dsimp only
      generalize moveAll sl mv ps _ = r at k
      generalize moveAll sl mv' (ps.map W.pop) _ = r' at k
      cases k with
      | err e => exact .err e
      | ok hk' => exact .ok ⟨by rw [hk.1, hk'.1]; rfl, hk'.2⟩

theorem seen_create (hQ : ∀ e, Q e e) {l : List (Src K α σ)} {l' : List (Src K α σ')}
    (h : List.Forall₂ (fun s s' => s'.species = s.species ∧ s'.interval = s.interval ∧ ∀ count time st st', W.side st st' →
      Both Q (fun r r' => W.side r.1 r'.1 ∧ r'.2 = r.2.map W.part) (s.make count time st) (s'.make count (W.time * time) st')) l l')
    (count : Int) (time : K) (ps : List (Pop K V α)) {st : σ} {st' : σ'} (hs : W.side st st') :
    Both (FaultAlike Q) (fun r r' => r'.1 = r.1.map W.pop ∧ W.side r.2 r'.2) (createAll sl count time l ps st)
      (createAll sl count (W.time * time) l' (ps.map W.pop) st') := by
  have hf : ∀ f, FaultAlike Q f f := fun f => by
    cases f with
    | raises e => exact .raises (hQ e)
    | allLost => exact .allLost
    | offMesh => exact .offMesh
  induction h generalizing ps st st' with
  | nil => exact .ok ⟨rfl, hs⟩
  | cons ha _ ih =>
    obtain ⟨a1, a2, a3⟩ := ha
    unfold createAll
    rw [a1, a2]
    split
    · exact .err (.raises (hQ _))
    · split
      · have k := a3 count time st st' hs
        generalize Src.make _ count time st = r at k
        generalize Src.make _ count (W.time * time) st' = r' at k
        cases k with
        | err e => exact .err (.raises e)
        | ok hk =>
          dsimp only
          rw [hk.2, seen_appendTo]
          cases appendTo sl _ _ ps with
          | error e => exact .err (hf e)
          | ok ps' => exact ih ps' hk.1
      · exact ih ps hs

theorem seen_settle (h : W.SeesCfg Q D onMesh onMesh' cfg cfg') (count : Int) (time : K) (ps : List (Pop K V α)) {st : σ} {st' : σ'}
    (hs : W.side st st') :
    Both (FaultAlike Q) W.Sees (settle cfg D onMesh count time ps st) (settle cfg' D onMesh' count (W.time * time) (ps.map W.pop) st') := by
  unfold settle
  have e : (ps.map W.pop).all (fun p => p.st.items.all onMesh') = ps.all (fun p => p.st.items.all onMesh) := by
    rw [List.all_map]
    refine List.all_congr rfl fun p => ?_
    show (p.st.items.map W.part).all onMesh' = _
    rw [List.all_map]
    exact List.all_congr rfl fun q => h.on q
  rw [e]
  split
  · refine .ok ⟨rfl, rfl, ?_, hs, h.potential ps⟩
    rw [List.map_map, List.map_map]
    refine List.map_congr_left fun p _ => ?_
    show looked (W.pop p) = W.pop (looked p)
    unfold looked Lens.pop
    simp
  · exact .err .offMesh

theorem seen_step (hQ : ∀ e, Q e e) (h : W.SeesCfg Q D onMesh onMesh' cfg cfg') {i : Ideal K V α σ} {i' : Ideal K V α σ'} (hi : W.Sees i i') :
    Both (FaultAlike Q) W.Sees (i.step cfg sl D onMesh) (i'.step cfg' sl D onMesh') := by
  unfold Ideal.step
  dsimp only
  rw [hi.count, hi.time, hi.pops, hi.phi, h.dt, ← mul_add]
  have k := seen_moveAll (sl := sl) h.charge (fun sn st st' j o b q hs => h.move sn i.phi (i.count + 1) (i.time + cfg.dt) st st' j o b q hs) i.pops hi.side
  generalize moveAll sl _ i.pops i.side = r at k
  generalize moveAll sl _ (i.pops.map W.pop) i'.side = r' at k
  cases k with
  | err e => exact .err e
  | @ok a b hk =>
    obtain ⟨ps, s1⟩ := a
    obtain ⟨ps', s2⟩ := b
    obtain ⟨k1, k2⟩ := hk
    dsimp only at k1 k2
    subst k1
    dsimp only
    have k := seen_create (sl := sl) hQ h.sources (i.count + 1) (i.time + cfg.dt) ps k2
    generalize createAll sl _ _ cfg.sources ps s1 = r at k
    generalize createAll sl _ _ cfg'.sources (ps.map W.pop) s2 = r' at k
    cases k with
    | err e => exact .err e
    | @ok a b hk =>
      obtain ⟨ps, s1⟩ := a
      obtain ⟨ps', s2⟩ := b
      obtain ⟨k1, k2⟩ := hk
      dsimp only at k1 k2
      subst k1
      exact seen_settle h _ _ ps k2

theorem seen_steps (hQ : ∀ e, Q e e) (h : W.SeesCfg Q D onMesh onMesh' cfg cfg') (n : Nat) {i : Ideal K V α σ} {i' : Ideal K V α σ'} (hi : W.Sees i i') :
    Both (FaultAlike Q) (List.Forall₂ W.Sees) (Ideal.steps cfg sl D onMesh n i) (Ideal.steps cfg' sl D onMesh' n i') := by
  induction n generalizing i i' with
  | zero => exact .ok .nil
  | succ n ih =>
    unfold Ideal.steps
    have k := seen_step (sl := sl) hQ h hi
    generalize i.step cfg sl D onMesh = r at k
    generalize i'.step cfg' sl D onMesh' = r' at k
    cases k with
    | err e => exact .err e
    | ok hk =>
      dsimp only
      have k := ih hk
      generalize Ideal.steps cfg sl D onMesh n _ = r at k
      generalize Ideal.steps cfg' sl D onMesh' n _ = r' at k
      cases k with
      | err e => exact .err e
      | ok hk' => exact .ok (.cons hk hk')

/-- Both runs are related from the beginning to the end. -/
theorem seen_run (hQ : ∀ e, Q e e) (h : W.SeesCfg Q D onMesh onMesh' cfg cfg') (gs : List (String × List α)) (b b' : List K) (n : Nat)
    {i : Ideal K V α σ} {i' : Ideal K V α σ'} (hi : W.Sees i i') :
    Both (FaultAlike Q) (fun r r' => List.Forall₂ W.Sees (r.1 :: r.2) (r'.1 :: r'.2)) (Ideal.run cfg sl D onMesh (some gs) b n i)
      (Ideal.run cfg' sl D onMesh' (some (gs.map (fun a => (a.1, a.2.map W.part)))) b' n i') := by
  unfold Ideal.run Ideal.start
  dsimp only
  rw [hi.pops, seen_groups, hi.count, hi.time]
  cases appendGroups sl gs i.pops with
  | error f =>
    refine .err ?_
    cases f with
    | raises e => exact .raises (hQ e)
    | allLost => exact .allLost
    | offMesh => exact .offMesh
  | ok ps =>
    have k := seen_settle h i.count i.time ps hi.side
    show Both _ _ (match settle cfg D onMesh i.count i.time ps i.side with | .error f => _ | .ok i0 => _)
      (match settle cfg' D onMesh' i.count (W.time * i.time) (ps.map W.pop) i'.side with | .error f => _ | .ok i0 => _)
    generalize settle cfg D onMesh i.count i.time ps i.side = r at k
    generalize settle cfg' D onMesh' i.count (W.time * i.time) (ps.map W.pop) i'.side = r' at k
    cases k with
    | err e => exact .err e
    | ok hk =>
      dsimp only
      have k := seen_steps (sl := sl) hQ h n hk
      generalize Ideal.steps cfg sl D onMesh n _ = r at k
      generalize Ideal.steps cfg' sl D onMesh' n _ = r' at k
      cases k with
      | err e => exact .err e
      | ok hk' => exact .ok (.cons hk hk')

/-! The same for the compiled loop. -/

theorem comp_seen_append (array : Bool) (sl : Nat) (st : LState α) (xs : List α) :
    Comp.appendAll array sl ⟨st.items.map W.part, st.stale⟩ (xs.map W.part) =
      (Comp.appendAll array sl st xs).map (fun st => ⟨st.items.map W.part, st.stale⟩) := by
  induction xs generalizing st with
  | nil => rfl
  | cons x xs ih =>
    rw [List.map_cons]
    unfold Comp.appendAll
    simp only [List.length_map, ne_eq, List.map_eq_nil_iff]
    split
    · rfl
    · rw [← ih ⟨st.items ++ [x], st.stale⟩]
      simp

theorem comp_seen_appendTo (array : Bool) (sl : Nat) (name : String) (xs : List α) (ps : List (Pop K V α)) :
    Comp.appendTo array sl name (xs.map W.part) (ps.map W.pop) = (Comp.appendTo array sl name xs ps).map (List.map W.pop) := by
  induction ps with
  | nil => rfl
  | cons p ps ih =>
    rw [List.map_cons]
    unfold Comp.appendTo
    show (if p.name = name then _ else _) = Except.map _ (if p.name = name then _ else _)
    split
    · show (match Comp.appendAll array sl ⟨p.st.items.map W.part, p.st.stale⟩ (xs.map W.part) with | .error f => _ | .ok st => _) = _
      rw [comp_seen_append]
      cases Comp.appendAll array sl p.st xs <;> rfl
    · rw [ih]
      cases Comp.appendTo array sl name xs ps <;> rfl

theorem comp_seen_groups (sl : Nat) (gs : List (String × List α)) (ps : List (Pop K V α)) :
    Comp.appendGroups sl (gs.map (fun a => (a.1, a.2.map W.part))) (ps.map W.pop) = (Comp.appendGroups sl gs ps).map (List.map W.pop) := by
  induction gs generalizing ps with
  | nil => rfl
  | cons a gs ih =>
    rw [List.map_cons]
    unfold Comp.appendGroups
    rw [comp_seen_appendTo]
    cases Comp.appendTo false sl a.1 a.2 ps with
    | error e => rfl
    | ok ps' => exact ih ps'

theorem comp_seen_movePop (hc : W.charge ≠ 0) {mv : String → Adv σ α} {mv' : String → Adv σ' α} (h : ∀ sn st st' i o b q, W.side st st' →
      Both Q (fun r r' => W.side r.1 r'.1 ∧ r'.2.1 = W.part r.2.1 ∧ r'.2.2 = r.2.2) (mv sn st i o b q) (mv' sn st' i o b (W.part q)))
    (p : Pop K V α) {st : σ} {st' : σ'} (hs : W.side st st') :
    Both (CompFaultAlike Q) (fun r r' => r'.1 = W.pop r.1 ∧ W.side r.2 r'.2) (Comp.movePop sl mv p st) (Comp.movePop sl mv' (W.pop p) st') := by
  unfold Comp.movePop
  have e1 : (W.pop p).charge = 0 ↔ p.charge = 0 := by
    show W.charge * p.charge = 0 ↔ _
    rw [mul_eq_zero, or_iff_right hc]
  have e2 : (W.pop p).st.items = [] ↔ p.st.items = [] := List.map_eq_nil_iff
  simp only [e1, e2]
  split
  · exact .ok ⟨rfl, hs⟩
  · rw [show (W.pop p).st.items.length = p.st.items.length from List.length_map _]
    split
    · exact .err .huge
    have k := seen_pass (h p.name) p.st.items hs 0 0
    have k2 := seen_flag (h p.name) p.st.items hs 0 0
    show Both _ _ _ (match pass (mv' p.name) st' 0 0 (p.st.items.map W.part) with | .error e => _ | .ok (side', ys) => _)
    generalize pass (mv p.name) st 0 0 p.st.items = r at k
    generalize pass (mv' p.name) st' 0 0 (p.st.items.map W.part) = r' at k
    cases k with
    | err e => exact .err (.raises e)
    | @ok a b h =>
      obtain ⟨s1, ys⟩ := a
      obtain ⟨s2, ys'⟩ := b
      obtain ⟨h1, h2⟩ := h
      dsimp only at h1 h2
      subst h2
      refine .ok ⟨?_, h1⟩
      show ({ W.pop p with st := _ } : Pop K V α) = _
      unfold Lens.pop
      simp only [Pop.mk.injEq, true_and, LState.mk.injEq]
      show decide (_ ∧ _ ∧ lastFlag (mv' p.name) st' 0 0 (p.st.items.map W.part) = some false) = _
      rw [k2]
      simp

theorem comp_seen_moveAll (hc : W.charge ≠ 0) {mv : String → Adv σ α} {mv' : String → Adv σ' α} (h : ∀ sn st st' i o b q, W.side st st' →
      Both Q (fun r r' => W.side r.1 r'.1 ∧ r'.2.1 = W.part r.2.1 ∧ r'.2.2 = r.2.2) (mv sn st i o b q) (mv' sn st' i o b (W.part q)))
    (ps : List (Pop K V α)) {st : σ} {st' : σ'} (hs : W.side st st') :
    Both (CompFaultAlike Q) (fun r r' => r'.1 = r.1.map W.pop ∧ W.side r.2 r'.2) (Comp.moveAll sl mv ps st) (Comp.moveAll sl mv' (ps.map W.pop) st') := by
  induction ps generalizing st st' with
  | nil => exact .ok ⟨rfl, hs⟩
  | cons p ps ih =>
    rw [List.map_cons]
    unfold Comp.moveAll
    have k := comp_seen_movePop (sl := sl) hc h p hs
    generalize Comp.movePop sl mv p st = r at k
    generalize Comp.movePop sl mv' (W.pop p) st' = r' at k
    cases k with
    | err e => exact .err e
    | ok hk =>
      have k := ih hk.2
      dsimp only
      generalize Comp.moveAll sl mv ps _ = r at k
      generalize Comp.moveAll sl mv' (ps.map W.pop) _ = r' at k
      cases k with
      | err e => exact .err e
      | ok hk' => exact .ok ⟨by rw [hk.1, hk'.1]; rfl, hk'.2⟩

theorem comp_seen_create (hQ : ∀ e, Q e e) {l : List (Src K α σ)} {l' : List (Src K α σ')}
    (h : List.Forall₂ (fun s s' => s'.species = s.species ∧ s'.interval = s.interval ∧ ∀ count time st st', W.side st st' →
      Both Q (fun r r' => W.side r.1 r'.1 ∧ r'.2 = r.2.map W.part) (s.make count time st) (s'.make count (W.time * time) st')) l l')
    (count : Int) (time : K) (ps : List (Pop K V α)) {st : σ} {st' : σ'} (hs : W.side st st') :
    Both (CompFaultAlike Q) (fun r r' => r'.1 = r.1.map W.pop ∧ W.side r.2 r'.2) (Comp.createAll sl count time l ps st)
      (Comp.createAll sl count (W.time * time) l' (ps.map W.pop) st') := by
  have hf : ∀ f, CompFaultAlike Q f f := fun f => by
    cases f with
    | raises e => exact .raises (hQ e)
    | huge => exact .huge
    | offMesh => exact .offMesh
  induction h generalizing ps st st' with
  | nil => exact .ok ⟨rfl, hs⟩
  | cons ha _ ih =>
    obtain ⟨a1, a2, a3⟩ := ha
    unfold Comp.createAll
    rw [a1, a2]
    split
    · exact .err (.raises (hQ _))
    · split
      · have k := a3 count time st st' hs
        generalize Src.make _ count time st = r at k
        generalize Src.make _ count (W.time * time) st' = r' at k
        cases k with
        | err e => exact .err (.raises e)
        | ok hk =>
          dsimp only
          rw [hk.2, comp_seen_appendTo]
          cases Comp.appendTo true sl _ _ ps with
          | error e => exact .err (hf e)
          | ok ps' => exact ih ps' hk.1
      · exact ih ps hs

theorem comp_seen_settle (h : W.SeesCfg Q D onMesh onMesh' cfg cfg') (count : Int) (time : K) (ps : List (Pop K V α)) {st : σ} {st' : σ'}
    (hs : W.side st st') :
    Both (CompFaultAlike Q) W.Sees (Comp.settle cfg D onMesh count time ps st) (Comp.settle cfg' D onMesh' count (W.time * time) (ps.map W.pop) st') := by
  unfold Comp.settle
  have e : (ps.map W.pop).all (fun p => p.st.items.all onMesh') = ps.all (fun p => p.st.items.all onMesh) := by
    rw [List.all_map]
    refine List.all_congr rfl fun p => ?_
    show (p.st.items.map W.part).all onMesh' = _
    rw [List.all_map]
    exact List.all_congr rfl fun q => h.on q
  rw [e]
  split
  · refine .ok ⟨rfl, rfl, ?_, hs, h.potential ps⟩
    rw [List.map_map, List.map_map]
    refine List.map_congr_left fun p _ => ?_
    show looked (W.pop p) = W.pop (looked p)
    unfold looked Lens.pop
    simp
  · exact .err .offMesh

theorem comp_seen_step (hQ : ∀ e, Q e e) (h : W.SeesCfg Q D onMesh onMesh' cfg cfg') {i : Ideal K V α σ} {i' : Ideal K V α σ'} (hi : W.Sees i i') :
    Both (CompFaultAlike Q) W.Sees (Comp.step cfg sl D onMesh i) (Comp.step cfg' sl D onMesh' i') := by
  unfold Comp.step
  dsimp only
  rw [hi.count, hi.time, hi.pops, hi.phi, h.dt, ← mul_add]
  have k := comp_seen_moveAll (sl := sl) h.charge (fun sn st st' j o b q hs => h.move sn i.phi (i.count + 1) (i.time + cfg.dt) st st' j o b q hs) i.pops hi.side
  generalize Comp.moveAll sl _ i.pops i.side = r at k
  generalize Comp.moveAll sl _ (i.pops.map W.pop) i'.side = r' at k
  cases k with
  | err e => exact .err e
  | @ok a b hk =>
    obtain ⟨ps, s1⟩ := a
    obtain ⟨ps', s2⟩ := b
    obtain ⟨k1, k2⟩ := hk
    dsimp only at k1 k2
    subst k1
    dsimp only
    have k := comp_seen_create (sl := sl) hQ h.sources (i.count + 1) (i.time + cfg.dt) ps k2
    generalize Comp.createAll sl _ _ cfg.sources ps s1 = r at k
    generalize Comp.createAll sl _ _ cfg'.sources (ps.map W.pop) s2 = r' at k
    cases k with
    | err e => exact .err e
    | @ok a b hk =>
      obtain ⟨ps, s1⟩ := a
      obtain ⟨ps', s2⟩ := b
      obtain ⟨k1, k2⟩ := hk
      dsimp only at k1 k2
      subst k1
      exact comp_seen_settle h _ _ ps k2

theorem comp_seen_steps (hQ : ∀ e, Q e e) (h : W.SeesCfg Q D onMesh onMesh' cfg cfg') (n : Nat) {i : Ideal K V α σ} {i' : Ideal K V α σ'} (hi : W.Sees i i') :
    Both (CompFaultAlike Q) (List.Forall₂ W.Sees) (Comp.steps cfg sl D onMesh n i) (Comp.steps cfg' sl D onMesh' n i') := by
  induction n generalizing i i' with
  | zero => exact .ok .nil
  | succ n ih =>
    unfold Comp.steps
    have k := comp_seen_step (sl := sl) hQ h hi
    generalize Comp.step cfg sl D onMesh i = r at k
    generalize Comp.step cfg' sl D onMesh' i' = r' at k
    cases k with
    | err e => exact .err e
    | ok hk =>
      dsimp only
      have k := ih hk
      generalize Comp.steps cfg sl D onMesh n _ = r at k
      generalize Comp.steps cfg' sl D onMesh' n _ = r' at k
      cases k with
      | err e => exact .err e
      | ok hk' => exact .ok (.cons hk hk')

/-- Both runs are related from the beginning to the end. -/
theorem comp_seen_run (hQ : ∀ e, Q e e) (h : W.SeesCfg Q D onMesh onMesh' cfg cfg') (gs : List (String × List α)) (b b' : List K) (n : Nat)
    {i : Ideal K V α σ} {i' : Ideal K V α σ'} (hi : W.Sees i i') :
    Both (CompFaultAlike Q) (fun r r' => List.Forall₂ W.Sees (r.1 :: r.2) (r'.1 :: r'.2)) (Comp.run cfg sl D onMesh (some gs) b n i)
      (Comp.run cfg' sl D onMesh' (some (gs.map (fun a => (a.1, a.2.map W.part)))) b' n i') := by
  unfold Comp.run Comp.start
  dsimp only
  rw [hi.pops, comp_seen_groups, hi.count, hi.time]
  cases Comp.appendGroups sl gs i.pops with
  | error f =>
    refine .err ?_
    cases f with
    | raises e => exact .raises (hQ e)
    | huge => exact .huge
    | offMesh => exact .offMesh
  | ok ps =>
    have k := comp_seen_settle h i.count i.time ps hi.side
    show Both _ _ (match Comp.settle cfg D onMesh i.count i.time ps i.side with | .error f => _ | .ok i0 => _)
      (match Comp.settle cfg' D onMesh' i.count (W.time * i.time) (ps.map W.pop) i'.side with | .error f => _ | .ok i0 => _)
    generalize Comp.settle cfg D onMesh i.count i.time ps i.side = r at k
    generalize Comp.settle cfg' D onMesh' i.count (W.time * i.time) (ps.map W.pop) i'.side = r' at k
    cases k with
    | err e => exact .err e
    | ok hk =>
      dsimp only
      have k := comp_seen_steps (sl := sl) hQ h n hk
      generalize Comp.steps cfg sl D onMesh n _ = r at k
      generalize Comp.steps cfg' sl D onMesh' n _ = r' at k
      cases k with
      | err e => exact .err e
      | ok hk' => exact .ok (.cons hk hk')

end

/-! ### The callbacks that come with the code -/

section
variable {g : Nat} {ρ τ : Type} {F : Frame K g}

theorem same_act (hF : F.Valid) (a : Act) (t : τ) (c : BCall K g g ρ) :
    a.run (t, ⟨F.part c.part, c.facet, c.frac, c.normal.map F.turn, F.move c.dx⟩) = (a.run (t, c)).map (fun r => (r.1, F.part r.2)) := by
  cases a with
  | absorb => rfl
  | nothing => rfl
  | reflect =>
    unfold Act.run bcReflect
    obtain ⟨q, fa, f, n, dx⟩ := c
    cases n with
    | none => rfl
    | some n =>
      simp only [Option.map_some, Except.map, Except.ok.injEq, Prod.mk.injEq, true_and]
      unfold Frame.part
      congr 1
      · dsimp only
        rw [dot_smul_r, dot_turn_move hF, dot_smul_r]
        unfold Frame.pos
        rw [turn_sub hF, hF.smul, smul_sub, smul_smul]
        rw [show 2 * ((1 - f) * (F.len * dot n dx)) = F.len * (2 * ((1 - f) * dot n dx)) by ring]
        abel
      · dsimp only
        unfold Frame.vel
        rw [dot_smul_r, hF.dot, turn_sub hF, hF.smul, smul_sub, smul_smul]
        rw [show 2 * (F.len / F.time * dot n q.u) = F.len / F.time * (2 * dot n q.u) by ring]

/-- C130.  The boundary functions that come with the code, found by name as the code finds them, do the same in other coordinates:
absorption, reflection and passing. -/
theorem C130_callbacks (hF : F.Valid) (table : Callbacks Act) (dict : List (String × Int)) (species : List String) (sn : String) :
    SameBC (ρ := ρ) (τ := τ) F (fun m t c => callBC (acting table) dict species m sn (t, c)) (fun m t c => callBC (acting table) dict species m sn (t, c)) := by
  intro m t c
  dsimp only
  unfold callBC bcDict
  cases invName dict m with
  | none => rfl
  | some bname =>
    dsimp only
    by_cases hs : sn ∈ species
    · rw [if_pos hs]
      unfold chooseBC acting
      dsimp only
      cases table ("bc_at_" ++ bname ++ "_for_" ++ sn) with
      | some a => exact same_act hF a t c
      | none =>
        cases table ("default_bc_at_" ++ bname) with
        | some a => exact same_act hF a t c
        | none =>
          cases table "default_bc" with
          | some a => exact same_act hF a t c
          | none => rfl
    · rw [if_neg hs]
      rfl

end

/-! ### Simulations on a mesh -/

section
variable {g : Nat} {ρ τ : Type} {F : Frame K g} {hg : g ≤ 3} {D D' : DMesh K g} {sh sh' : Shape K g} {N : Nat} {pmarker marker : Int → Int}
  {lo hi : Int} {v0 vN eps : K} {dd dd' : List (String × Int × Val K)} {s s' : Solver K} {junk : Int} {M M' : Mesh K g}

/-- C130.  The dictionaries of the mesh are those of the same mesh in other coordinates; if they cannot be made, neither can the
others. -/
theorem C130_mesh (h : SameMesh hg F D D' sh sh') (junk : Int) (pmarker : Int → Int) :
    (∃ M M', buildMesh hg D junk pmarker = .ok M ∧ buildMesh hg D' junk pmarker = .ok M' ∧ Turned F M M') ∨
    ∃ e, buildMesh hg D junk pmarker = .error e ∧ buildMesh hg D' junk pmarker = .error e := by
  cases e : buildMesh hg D junk pmarker with
  | ok M =>
    obtain ⟨M', e', hM⟩ := same_built h e
    exact .inl ⟨M, M', rfl, e', hM⟩
  | error f =>
    refine .inr ⟨f, rfl, ?_⟩
    have ht : D'.topo = D.topo := by
      unfold DMesh.topo
      rw [same_facets h, h.attached]
    unfold buildMesh at e ⊢
    rw [ht]
    cases hn : pyNeighbors D.topo g junk with
    | error f' => rw [hn] at e; cases e; rfl
    | ok nbs => rw [hn] at e; cases e

theorem field_neg (hF : F.Valid) (e : Vec K g) : -(F.field e) = F.field (-e) := by
  unfold Frame.field
  rw [turn_neg hF, smul_neg]

theorem seen_field (hF : F.Valid) (f : List (Vec K g)) (k : Nat) :
    (((f.map F.field)[k]?).map (fun e => -e)) = ((f[k]?).map (fun e => -e)).map F.field := by
  rw [List.getElem?_map]
  cases f[k]? with
  | none => rfl
  | some e => exact congrArg some (field_neg hF e)

/-- A frame as a lens for Python programs. -/
def Spec.Frame.lens (F : Frame K g) : Lens K (Part K g ρ) (τ × Vec K g) (τ × Vec K g) :=
  ⟨F.time, F.charge, F.mass, F.volt, F.part, fun st st' => st' = (st.1, F.move st.2)⟩

theorem lens_state {i i' : Ideal K V (Part K g ρ) (τ × Vec K g)} : F.lens.Sees i i' ↔ i' = F.state i := by
  constructor
  · rintro ⟨h1, h2, h3, h4, h5⟩
    obtain ⟨c, t, ps, sd, ph⟩ := i'
    dsimp only at *
    subst h1 h2 h3 h5
    have h4 : sd = (i.side.1, F.move i.side.2) := h4
    subst h4
    rfl
  · rintro rfl
    exact ⟨rfl, rfl, rfl, rfl, rfl⟩

variable {bc bc' : String → Int → τ → BCall K g g ρ → Except Err (τ × Part K g ρ)} {maxCross : Nat} {qom qom' : String → K}

theorem seen_cfg {cfg cfg' : Cfg K V (Part K g ρ) (τ × Vec K g) (List (Vec K g))} {d d' : Nat → Nat} {C C' : Nat}
    (hF : F.Valid) (h : SameMesh hg F D D' sh sh') (hm : Meshed D sh N) (hm' : Meshed D' sh' N) (he : 0 < eps)
    (hl : ∀ i ≤ N, Linked D (fun i => OnSide D marker lo i ∨ OnSide D marker hi i) i)
    (h1 : dd.lookup "rmin" = some (lo, .num v0)) (h2 : dd.lookup "rmax" = some (hi, .num vN))
    (h1' : dd'.lookup "rmin" = some (lo, .num (F.volt v0))) (h2' : dd'.lookup "rmax" = some (hi, .num (F.volt vN)))
    (e : buildMesh hg D junk pmarker = .ok M) (e' : buildMesh hg D' junk pmarker = .ok M')
    (hs : createOn eps D sh N marker dd = .ok s) (hs' : createOn (F.perm eps) D' sh' N marker dd' = .ok s')
    (hbc : ∀ sn, SameBC F (bc sn) (bc' sn)) (hq : ∀ sn, qom' sn = F.ratio (qom sn))
    (hmv : cfg.move = pyMove (le_refl g) M bc maxCross cfg.dt qom (fun _ f q => (f[q.cell.toNat]?).map (fun e => -e)))
    (hmv' : cfg'.move = pyMove (le_refl g) M' bc' maxCross cfg'.dt qom' (fun _ f q => (f[q.cell.toNat]?).map (fun e => -e)))
    (hdt : cfg'.dt = F.time * cfg.dt) (hsrc : SameSources F cfg.sources cfg'.sources)
    (hP : PlasmaOn cfg D sh N marker s d C) (hP' : PlasmaOn cfg' D' sh' N marker s' d' C')
    (hw : ∀ q, cfg'.A.weight (F.part q) = cfg.A.weight q) (hf : cfg'.factor = cfg.factor) :
    F.lens.SeesCfg Eq (N + 1) (onCells D) (onCells D') cfg cfg' := by
  rw [createOn_eq h1 h2] at hs
  rw [createOn_eq h1' h2'] at hs'
  cases hs
  cases hs'
  obtain ⟨M2, e2, hM⟩ := same_built h e
  rw [e'] at e2
  cases e2
  refine ⟨hF.charge.ne', hdt, fun q => same_on h q, ?_, ?_, fun pops => alike_potential hF h hm hm' he hl rfl rfl hP hP' hw hf pops⟩
  · intro sn phi count time st st' i o b q hst
    have hst : st' = (st.1, F.move st.2) := hst
    subst hst
    rw [hmv, hmv', hP.field, hP'.field]
    unfold pyMove plainAdv
    have k := turned_move (v := .charged) hF hM (hbc sn) maxCross time cfg.dt (qom sn)
      (E := fun q => ((negEOn D sh phi)[q.cell.toNat]?).map (fun e => -e))
      (E' := fun q => ((negEOn D' sh' (phi.map F.volt))[q.cell.toNat]?).map (fun e => -e)) q
      (by
        show ((negEOn D' sh' (phi.map F.volt))[q.cell.toNat]?).map (fun e => -e) = _
        rw [same_negE hF h hm hm', seen_field hF]) st
    rw [← hdt, ← hq] at k
    dsimp only [Frame.lens]
    rw [k]
    cases moveCharged (le_refl g) M .charged (bc sn) maxCross time cfg.dt (qom sn * cfg.dt) false
      (fun q => ((negEOn D sh phi)[q.cell.toNat]?).map (fun e => -e)) st q with
    | error e => exact .err rfl
    | ok r => exact .ok ⟨rfl, rfl, rfl⟩
  · refine hsrc.imp fun s s' hs => ⟨hs.1, hs.2.1, fun count time st st' hst => ?_⟩
    have hst : st' = (st.1, F.move st.2) := hst
    subst hst
    have := hs.2.2 count time st
    show Both _ _ _ (s'.make count (F.time * time) (st.1, F.move st.2))
    rw [this]
    cases s.make count time st with
    | error e => exact .err rfl
    | ok r => exact .ok ⟨rfl, rfl⟩

/-- C130.  A simulation with the Python movers on a triangulation, seen in other coordinates and in other units, is the simulation on the
mesh with these coordinates: the same states, or the same exception in the same step. -/
theorem C130_run {cfg cfg' : Cfg K V (Part K g ρ) (τ × Vec K g) (List (Vec K g))} {d d' : Nat → Nat} {C C' : Nat}
    (hF : F.Valid) (h : SameMesh hg F D D' sh sh') (hm : Meshed D sh N) (hm' : Meshed D' sh' N) (he : 0 < eps)
    (hl : ∀ i ≤ N, Linked D (fun i => OnSide D marker lo i ∨ OnSide D marker hi i) i)
    (h1 : dd.lookup "rmin" = some (lo, .num v0)) (h2 : dd.lookup "rmax" = some (hi, .num vN))
    (h1' : dd'.lookup "rmin" = some (lo, .num (F.volt v0))) (h2' : dd'.lookup "rmax" = some (hi, .num (F.volt vN)))
    (e : buildMesh hg D junk pmarker = .ok M) (e' : buildMesh hg D' junk pmarker = .ok M')
    (hs : createOn eps D sh N marker dd = .ok s) (hs' : createOn (F.perm eps) D' sh' N marker dd' = .ok s')
    (hbc : ∀ sn, SameBC F (bc sn) (bc' sn)) (hq : ∀ sn, qom' sn = F.ratio (qom sn))
    (hmv : cfg.move = pyMove (le_refl g) M bc maxCross cfg.dt qom (fun _ f q => (f[q.cell.toNat]?).map (fun e => -e)))
    (hmv' : cfg'.move = pyMove (le_refl g) M' bc' maxCross cfg'.dt qom' (fun _ f q => (f[q.cell.toNat]?).map (fun e => -e)))
    (hdt : cfg'.dt = F.time * cfg.dt) (hsrc : SameSources F cfg.sources cfg'.sources)
    (hP : PlasmaOn cfg D sh N marker s d C) (hP' : PlasmaOn cfg' D' sh' N marker s' d' C')
    (hw : ∀ q, cfg'.A.weight (F.part q) = cfg.A.weight q) (hf : cfg'.factor = cfg.factor)
    (sl n : Nat) (gs : List (String × List (Part K g ρ))) (b b' : List K) (i : Ideal K V (Part K g ρ) (τ × Vec K g)) :
    Ideal.run cfg' sl (N + 1) (onCells D') (some (F.lists gs)) b' n (F.state i) =
      (Ideal.run cfg sl (N + 1) (onCells D) (some gs) b n i).map (fun r => (F.state r.1, r.2.map F.state)) := by
  have k := seen_run (sl := sl) (fun _ => rfl) (seen_cfg hF h hm hm' he hl h1 h2 h1' h2' e e' hs hs' hbc hq hmv hmv' hdt hsrc hP hP' hw hf) gs b b' n
    (lens_state.2 rfl : F.lens.Sees i (F.state i))
  change Both _ _ _ (Ideal.run cfg' sl (N + 1) (onCells D') (some (F.lists gs)) b' n (F.state i)) at k
  generalize Ideal.run cfg' sl (N + 1) (onCells D') (some (F.lists gs)) b' n (F.state i) = r' at k
  generalize Ideal.run cfg sl (N + 1) (onCells D) (some gs) b n i = r at k
  cases k with
  | err e =>
    cases e with
    | raises e => rw [e]; rfl
    | allLost => rfl
    | offMesh => rfl
  | @ok a a' hk =>
    obtain ⟨i0, is⟩ := a
    obtain ⟨i0', is'⟩ := a'
    dsimp only at hk
    cases hk with
    | cons k1 k2 =>
      rw [lens_state] at k1
      subst k1
      have : is' = is.map F.state := by
        clear * - k2
        induction k2 with
        | nil => rfl
        | cons a _ ih => rw [List.map_cons, ih, lens_state.1 a]
      rw [this]
      rfl

theorem lastOf_state (i0 : Ideal K V (Part K g ρ) (τ × Vec K g)) (is : List (Ideal K V (Part K g ρ) (τ × Vec K g))) :
    lastOf (F.state i0) (is.map F.state) = F.state (lastOf i0 is) := by
  unfold lastOf
  rw [List.getLast?_map]
  cases is.getLast? <;> rfl

theorem dueStates_state (e : Option Int) (is : List (Ideal K V (Part K g ρ) (τ × Vec K g))) :
    dueStates e (is.map F.state) = (dueStates e is).map F.state := by
  unfold dueStates
  rw [List.filter_map]
  rfl

theorem stored_alike {S S' : Type} {nm : S → String} {nm' : S' → String} {P : S → List (Part K g ρ) → Prop} {P' : S' → List (Part K g ρ) → Prop}
    {sps : List S} {sps' : List S'} {l : List (Pop K V (Part K g ρ))}
    (h : List.Forall₂ (fun sp p => nm sp = p.name ∧ P sp p.st.items) sps l)
    (h' : List.Forall₂ (fun sp p => nm' sp = p.name ∧ P' sp p.st.items) sps' (l.map F.pop)) :
    List.Forall₂ (fun sp sp' => nm' sp' = nm sp ∧ ∃ xs, P sp xs ∧ P' sp' (xs.map F.part)) sps sps' := by
  induction h generalizing sps' with
  | nil => cases h'; exact .nil
  | cons h0 _ ih =>
    cases h' with
    | cons k0 k1 => exact .cons ⟨k0.1.trans h0.1.symm, _, h0.2, k0.2⟩ (ih k1)

/-- C130.  If one program ends normally, so does the other, and the particles in its containers, the potential, the time and the potentials it
has written are those of the first in other coordinates. -/
theorem C130_program {cfg cfg' : Cfg K V (Part K g ρ) (τ × Vec K g) (List (Vec K g))} {d d' : Nat → Nat} {C C' : Nat}
    (hF : F.Valid) (h : SameMesh hg F D D' sh sh') (hm : Meshed D sh N) (hm' : Meshed D' sh' N) (he : 0 < eps)
    (hl : ∀ i ≤ N, Linked D (fun i => OnSide D marker lo i ∨ OnSide D marker hi i) i)
    (h1 : dd.lookup "rmin" = some (lo, .num v0)) (h2 : dd.lookup "rmax" = some (hi, .num vN))
    (h1' : dd'.lookup "rmin" = some (lo, .num (F.volt v0))) (h2' : dd'.lookup "rmax" = some (hi, .num (F.volt vN)))
    (e : buildMesh hg D junk pmarker = .ok M) (e' : buildMesh hg D' junk pmarker = .ok M')
    (hs : createOn eps D sh N marker dd = .ok s) (hs' : createOn (F.perm eps) D' sh' N marker dd' = .ok s')
    (hbc : ∀ sn, SameBC F (bc sn) (bc' sn)) (hq : ∀ sn, qom' sn = F.ratio (qom sn))
    (hmv : cfg.move = pyMove (le_refl g) M bc maxCross cfg.dt qom (fun _ f q => (f[q.cell.toNat]?).map (fun e => -e)))
    (hmv' : cfg'.move = pyMove (le_refl g) M' bc' maxCross cfg'.dt qom' (fun _ f q => (f[q.cell.toNat]?).map (fun e => -e)))
    (hdt : cfg'.dt = F.time * cfg.dt) (hsrc : SameSources F cfg.sources cfg'.sources)
    (hP : PlasmaOn cfg D sh N marker s d C) (hP' : PlasmaOn cfg' D' sh' N marker s' d' C')
    (hw : ∀ q, cfg'.A.weight (F.part q) = cfg.A.weight q) (hf : cfg'.factor = cfg.factor)
    (hc : GoodCfg cfg) (hc' : GoodCfg cfg') {sl n : Nat} {z z' : Species.HRow K} {st st' : State K V (Part K g ρ) (τ × Vec K g) (List (Vec K g))}
    {b b' : List K} {i i0 : Ideal K V (Part K g ρ) (τ × Vec K g)} {is : List (Ideal K V (Part K g ρ) (τ × Vec K g))}
    (hfr : Fresh sl (N + 1) C n z st i b) (hfr' : Fresh sl (N + 1) C' n z' st' (F.state i) b')
    (hwr : st.writer = none → cfg.partEvery = none) (hwr' : st'.writer = none → cfg'.partEvery = none) {gs : List (String × List (Part K g ρ))}
    (hr : Ideal.run cfg sl (N + 1) (onCells D) (some gs) b n i = .ok (i0, is)) :
    ∃ t t', run cfg (some gs) n st = .ok t ∧ run cfg' (some (F.lists gs)) n st' = .ok t' ∧
      t'.count = t.count ∧ t'.time = F.time * t.time ∧ t'.solver.phi = t.solver.phi.map F.volt ∧
      List.Forall₂ (fun sp sp' => sp'.name = sp.name ∧ ∃ xs, Stores sp.sap xs ∧ Stores sp'.sap (xs.map F.part)) t.sps t'.sps ∧
      (cfg'.fieldEvery = cfg.fieldEvery → t'.phiLog.tail = t.phiLog.tail.map (fun a => (F.time * a.1, a.2.map F.volt))) := by
  have hr' := C130_run hF h hm hm' he hl h1 h2 h1' h2' e e' hs hs' hbc hq hmv hmv' hdt hsrc hP hP' hw hf sl n gs b b' i
  rw [hr] at hr'
  have hr' : Ideal.run cfg' sl (N + 1) (onCells D') (some (F.lists gs)) b' n (F.state i) = .ok (F.state i0, is.map F.state) := hr'
  have k := C68_run hc (hP.goodMesh hm) n (some gs) hfr hwr
  have k' := C68_run hc' (hP'.goodMesh hm') n (some (F.lists gs)) hfr' hwr'
  rw [hr] at k
  rw [hr'] at k'
  obtain ⟨-, t, et, o⟩ := k
  obtain ⟨-, t', et', o'⟩ := k'
  refine ⟨t, t', et, et', ?_, ?_, ?_, ?_, fun hev => ?_⟩
  · rw [o.count, o'.count, lastOf_state]; rfl
  · rw [o.time, o'.time, lastOf_state]; rfl
  · rw [o.phi, o'.phi, lastOf_state]; rfl
  · have := o'.particles
    rw [lastOf_state] at this
    exact stored_alike (F := F) (nm := fun sp : Sp K V (Part K g ρ) => sp.name) (nm' := fun sp : Sp K V (Part K g ρ) => sp.name)
      (P := fun sp : Sp K V (Part K g ρ) => Stores sp.sap) (P' := fun sp : Sp K V (Part K g ρ) => Stores sp.sap) o.particles this
  · rw [o.phiLog, o'.phiLog, hev, dueStates_state]
    cases he : cfg.fieldEvery with
    | none => simp [dueStates, isDue]
    | some e =>
      simp only [Option.isSome_some, if_true, List.cons_append, List.tail_cons, List.nil_append, List.map_cons, List.map_map]
      rfl

/-! ### Compiled code -/

theorem same_interior (hF : F.Valid) (h : SameMesh hg F D D' sh sh') {c c' : DSimplex K} (hv : c'.verts = c.verts) {x' : Vec K g}
    (hx : InInterior (corner D' c') x') : ∃ x, x' = F.pos x ∧ InInterior (corner D c) x := by
  obtain ⟨w, w0, w1, hx⟩ := hx
  refine ⟨∑ j, w j • corner D c j, ?_, w, w0, w1, fun k => ?_⟩
  · have : x' = ∑ j, w j • corner D' c' j := by
      funext k
      rw [hx k, Finset.sum_apply]
      rfl
    rw [this]
    unfold Frame.pos
    rw [turn_sum hF, Finset.smul_sum]
    have e : ∀ j, w j • corner D' c' j = F.len • F.turn (w j • corner D c j) + w j • F.origin := by
      intro j
      unfold corner
      rw [hv, h.coord, hF.smul]
      unfold Frame.pos
      rw [smul_add, smul_comm]
    simp only [e]
    rw [Finset.sum_add_distrib, ← Finset.sum_smul, w1, one_smul]
  · rw [Finset.sum_apply]
    rfl

theorem pos_inj (hF : F.Valid) {x y : Vec K g} (h : F.pos x = F.pos y) : x = y := by
  have h0 : F.move (x - y) = 0 := by rw [← pos_sub hF, h, sub_self]
  have h1 : dot (x - y) (x - y) = 0 := by
    rw [← dot_move hF, h0]
    simp [dot]
  have h2 : x - y = 0 := by
    funext k
    have := (Finset.sum_eq_zero_iff_of_nonneg (fun i _ => mul_self_nonneg ((x - y) i))).1 h1 k (Finset.mem_univ _)
    simpa using this
  exact sub_eq_zero.1 h2

theorem forall₂_back {A B : Type} {R : A → B → Prop} {l : List A} {l' : List B} (h : List.Forall₂ R l l') {b : B} (hb : b ∈ l') :
    ∃ a ∈ l, R a b := by
  induction h with
  | nil => cases hb
  | cons h0 _ ih =>
    rcases List.mem_cons.1 hb with rfl | hb
    · exact ⟨_, List.mem_cons_self, h0⟩
    · obtain ⟨a, k1, k2⟩ := ih hb
      exact ⟨a, List.mem_cons_of_mem _ k1, k2⟩

/-- A triangulation is one in other coordinates. -/
theorem same_triangulation (hF : F.Valid) (h : SameMesh hg F D D' sh sh') (hD : Triangulation hg D) : Triangulation hg D' := by
  have ht : D'.topo = D.topo := by
    unfold DMesh.topo
    rw [same_facets h, h.attached]
  refine ⟨hD.dim, by rw [ht]; exact hD.manifold, fun c' hc' => ?_, fun c' hc' => ?_, fun a' ha' c' hc' => ?_, fun c' hc' => ?_, fun c' hc' => ?_,
    fun a' ha' c' hc' hne x' ⟨x1, x2⟩ => ?_⟩
  · obtain ⟨c, hc, -, -, k3, -⟩ := forall₂_back h.cells hc'
    rw [k3]
    exact hD.facetNo c hc
  · obtain ⟨c, hc, -, k2, -⟩ := forall₂_back h.cells hc'
    rw [k2]
    exact hD.corners c hc
  · obtain ⟨a, ha, -, j2, j3, -⟩ := forall₂_back h.cells ha'
    obtain ⟨c, hc, -, k2, k3, -⟩ := forall₂_back h.cells hc'
    unfold OfFacet
    rw [j2, j3, k2, k3]
    exact hD.same a ha c hc
  · obtain ⟨c, hc, -, k2, -, k4, -⟩ := forall₂_back h.cells hc'
    intro k i j hi hj
    rw [k4 k (by omega), same_corner hF h k2, dot_turn_move hF, hD.perp c hc k i j hi hj, mul_zero]
  · obtain ⟨c, hc, -, k2, -, k4, -⟩ := forall₂_back h.cells hc'
    intro k i j hi hj
    rw [k4 k (by omega), same_corner hF h k2, dot_turn_move hF]
    exact mul_neg_of_pos_of_neg hF.len (hD.outward c hc k i j hi hj)
  · obtain ⟨a, ha, j1, j2, -⟩ := forall₂_back h.cells ha'
    obtain ⟨c, hc, k1, k2, -⟩ := forall₂_back h.cells hc'
    obtain ⟨x, ex, hx⟩ := same_interior hF h j2 x1
    obtain ⟨y, ey, hy⟩ := same_interior hF h k2 x2
    rw [← pos_inj hF (ex.symm.trans ey)] at hy
    exact hD.disjoint a ha c hc (by rw [← j1, ← k1]; exact hne) x ⟨hx, hy⟩

theorem same_numbered (h : SameMesh hg F D D' sh sh') {nVerts : Nat} (hn : Numbered D nVerts) : Numbered D' nVerts := by
  refine ⟨fun c' hc' => ?_, fun c' hc' => ?_⟩
  · obtain ⟨c, hc, k1, -⟩ := forall₂_back h.cells hc'
    rw [k1, ← h.cells.length_eq]
    exact hn.1 c hc
  · obtain ⟨c, hc, -, k2, -⟩ := forall₂_back h.cells hc'
    rw [k2]
    exact hn.2 c hc

/-- A frame as a lens for compiled programs. -/
def Spec.Frame.cppLens (F : Frame K g) : Lens K (Part K g ρ) ((τ × Vec K g) × Scratch K) ((τ × Vec K g) × Scratch K) :=
  ⟨F.time, F.charge, F.mass, F.volt, F.part, fun st st' => st'.1 = (st.1.1, F.move st.1.2)⟩

theorem comp_seen_cfg {cfg cfg' : Cfg K V (Part K g ρ) ((τ × Vec K g) × Scratch K) (List (Vec K g))} {d d' : Nat → Nat} {C C' nVerts : Nat}
    (hF : F.Valid) (h : SameMesh hg F D D' sh sh') (hD : Triangulation hg D) (hn : Numbered D nVerts)
    (hm : Meshed D sh N) (hm' : Meshed D' sh' N) (he : 0 < eps)
    (hl : ∀ i ≤ N, Linked D (fun i => OnSide D marker lo i ∨ OnSide D marker hi i) i)
    (h1 : dd.lookup "rmin" = some (lo, .num v0)) (h2 : dd.lookup "rmax" = some (hi, .num vN))
    (h1' : dd'.lookup "rmin" = some (lo, .num (F.volt v0))) (h2' : dd'.lookup "rmax" = some (hi, .num (F.volt vN)))
    {cm cm' : CppMesh K} (e : buildCpp D nVerts pmarker = .ok cm) (e' : buildCpp D' nVerts pmarker = .ok cm')
    (hs : createOn eps D sh N marker dd = .ok s) (hs' : createOn (F.perm eps) D' sh' N marker dd' = .ok s')
    {L : Layout K g} (hL : L.Right) (hbc : ∀ sn, SameBC F (bc sn) (bc' sn)) (hq : ∀ sn, qom' sn = F.ratio (qom sn))
    (hmv : cfg.move = CppLoop.cppMove (le_refl g) L cm bc maxCross cfg.dt qom (fun _ f q => (f[q.cell.toNat]?).map (fun e => -e)))
    (hmv' : cfg'.move = CppLoop.cppMove (le_refl g) L cm' bc' maxCross cfg'.dt qom' (fun _ f q => (f[q.cell.toNat]?).map (fun e => -e)))
    (hdt : cfg'.dt = F.time * cfg.dt) (hsrc : SameCppSources F cfg.sources cfg'.sources)
    (hP : PlasmaOn cfg D sh N marker s d C) (hP' : PlasmaOn cfg' D' sh' N marker s' d' C')
    (hw : ∀ q, cfg'.A.weight (F.part q) = cfg.A.weight q) (hf : cfg'.factor = cfg.factor) :
    F.cppLens.SeesCfg (fun _ _ => True) (N + 1) (onCells D) (onCells D') cfg cfg' := by
  rw [createOn_eq h1 h2] at hs
  rw [createOn_eq h1' h2'] at hs'
  cases hs
  cases hs'
  obtain ⟨M, cm1, eM, ecm, hT⟩ := C107_same_mesh hD hn 0 pmarker
  rw [e] at ecm
  cases ecm
  obtain ⟨M', cm1', eM', ecm', hT'⟩ := C107_same_mesh (same_triangulation hF h hD) (same_numbered h hn) 0 pmarker
  rw [e'] at ecm'
  cases ecm'
  obtain ⟨M2, e2, hM⟩ := same_built h eM
  rw [eM'] at e2
  cases e2
  refine ⟨hF.charge.ne', hdt, fun q => same_on h q, ?_, ?_, fun pops => alike_potential hF h hm hm' he hl rfl rfl hP hP' hw hf pops⟩
  · intro sn phi count time st st' i o b q hst
    have hst : st'.1 = (st.1.1, F.move st.1.2) := hst
    rw [hmv, hmv', hP.field, hP'.field]
    have m := C109_movers hT (le_refl g) hL (bcC := bc) (bcP := bc) (fun _ _ _ _ _ => Iff.rfl) maxCross cfg.dt qom
      (fun _ (f : List (Vec K g)) q => (f[q.cell.toNat]?).map (fun e => -e)) sn (negEOn D sh phi) count time st st.1 i o b q rfl
    have m' := C109_movers hT' (le_refl g) hL (bcC := bc') (bcP := bc') (fun _ _ _ _ _ => Iff.rfl) maxCross cfg'.dt qom'
      (fun _ (f : List (Vec K g)) q => (f[q.cell.toNat]?).map (fun e => -e)) sn (negEOn D' sh' (phi.map F.volt)) count (F.time * time) st'
      (st.1.1, F.move st.1.2) i o b (F.part q) hst
    have k := turned_move (v := .charged) hF hM (hbc sn) maxCross time cfg.dt (qom sn)
      (E := fun q => ((negEOn D sh phi)[q.cell.toNat]?).map (fun e => -e))
      (E' := fun q => ((negEOn D' sh' (phi.map F.volt))[q.cell.toNat]?).map (fun e => -e)) q
      (by
        show ((negEOn D' sh' (phi.map F.volt))[q.cell.toNat]?).map (fun e => -e) = _
        rw [same_negE hF h hm hm', seen_field hF]) st.1
    rw [← hdt, ← hq] at k
    unfold pyMove plainAdv at m m'
    dsimp only at m m'
    rw [k] at m'
    dsimp only [Frame.cppLens]
    revert m m'
    cases moveCharged (le_refl g) M .charged (bc sn) maxCross time cfg.dt (qom sn * cfg.dt) false
      (fun q => ((negEOn D sh phi)[q.cell.toNat]?).map (fun e => -e)) st.1 q with
    | error e =>
      intro m m'
      rcases m.cases with ⟨_, _, a1, -⟩ | ⟨_, _, _, -, a2, -⟩
      · rcases m'.cases with ⟨_, _, c1, -⟩ | ⟨_, _, _, -, c2, -⟩
        · rw [a1, c1]
          exact .err trivial
        · cases c2
      · cases a2
    | ok r =>
      intro m m'
      rcases m.cases with ⟨_, _, -, a2⟩ | ⟨x, _, _, a1, a2, a3⟩
      · cases a2
      · rcases m'.cases with ⟨_, _, -, c2⟩ | ⟨y, _, _, c1, c2, c3⟩
        · cases c2
        · cases a2
          cases c2
          rw [a1, c1]
          refine .ok ⟨?_, rfl, rfl⟩
          rw [c3, a3]
  · refine hsrc.imp fun s s' hs => ⟨hs.1, hs.2.1, fun count time st st' hst => ?_⟩
    rcases hs.2.2 count time st st' hst with ⟨e1, e2, a1, a2⟩ | ⟨r, r', a1, a2, a3, a4⟩
    · rw [a1]
      show Both _ _ _ (s'.make count (F.time * time) st')
      rw [a2]
      exact .err trivial
    · rw [a1]
      show Both _ _ _ (s'.make count (F.time * time) st')
      rw [a2]
      exact .ok ⟨a3, a4⟩

/-- C130.  In compiled code too: if the simulation ends normally, so does the one in other coordinates, and its states are those of the first. -/
theorem C130_compiled {cfg cfg' : Cfg K V (Part K g ρ) ((τ × Vec K g) × Scratch K) (List (Vec K g))} {d d' : Nat → Nat} {C C' nVerts : Nat}
    (hF : F.Valid) (h : SameMesh hg F D D' sh sh') (hD : Triangulation hg D) (hn : Numbered D nVerts)
    (hm : Meshed D sh N) (hm' : Meshed D' sh' N) (he : 0 < eps)
    (hl : ∀ i ≤ N, Linked D (fun i => OnSide D marker lo i ∨ OnSide D marker hi i) i)
    (h1 : dd.lookup "rmin" = some (lo, .num v0)) (h2 : dd.lookup "rmax" = some (hi, .num vN))
    (h1' : dd'.lookup "rmin" = some (lo, .num (F.volt v0))) (h2' : dd'.lookup "rmax" = some (hi, .num (F.volt vN)))
    {cm cm' : CppMesh K} (e : buildCpp D nVerts pmarker = .ok cm) (e' : buildCpp D' nVerts pmarker = .ok cm')
    (hs : createOn eps D sh N marker dd = .ok s) (hs' : createOn (F.perm eps) D' sh' N marker dd' = .ok s')
    {L : Layout K g} (hL : L.Right) (hbc : ∀ sn, SameBC F (bc sn) (bc' sn)) (hq : ∀ sn, qom' sn = F.ratio (qom sn))
    (hmv : cfg.move = CppLoop.cppMove (le_refl g) L cm bc maxCross cfg.dt qom (fun _ f q => (f[q.cell.toNat]?).map (fun e => -e)))
    (hmv' : cfg'.move = CppLoop.cppMove (le_refl g) L cm' bc' maxCross cfg'.dt qom' (fun _ f q => (f[q.cell.toNat]?).map (fun e => -e)))
    (hdt : cfg'.dt = F.time * cfg.dt) (hsrc : SameCppSources F cfg.sources cfg'.sources)
    (hP : PlasmaOn cfg D sh N marker s d C) (hP' : PlasmaOn cfg' D' sh' N marker s' d' C')
    (hw : ∀ q, cfg'.A.weight (F.part q) = cfg.A.weight q) (hf : cfg'.factor = cfg.factor)
    (sl n : Nat) (gs : List (String × List (Part K g ρ))) (b b' : List K) {i i' : Ideal K V (Part K g ρ) ((τ × Vec K g) × Scratch K)}
    (hi : SeenFrom F i i') (hside : i'.side.1 = (i.side.1.1, F.move i.side.1.2)) :
    (∃ r r', Comp.run cfg sl (N + 1) (onCells D) (some gs) b n i = .ok r ∧
      Comp.run cfg' sl (N + 1) (onCells D') (some (F.lists gs)) b' n i' = .ok r' ∧ List.Forall₂ (SeenFrom F) (r.1 :: r.2) (r'.1 :: r'.2)) ∨
    ∃ f f', Comp.run cfg sl (N + 1) (onCells D) (some gs) b n i = .error f ∧
      Comp.run cfg' sl (N + 1) (onCells D') (some (F.lists gs)) b' n i' = .error f' := by
  have k := comp_seen_run (sl := sl) (fun _ => trivial)
    (comp_seen_cfg hF h hD hn hm hm' he hl h1 h2 h1' h2' e e' hs hs' hL hbc hq hmv hmv' hdt hsrc hP hP' hw hf) gs b b' n
    (⟨hi.count, hi.time, hi.pops, hside, hi.phi⟩ : F.cppLens.Sees i i')
  change Both _ _ _ (Comp.run cfg' sl (N + 1) (onCells D') (some (F.lists gs)) b' n i') at k
  revert k
  generalize Comp.run cfg' sl (N + 1) (onCells D') (some (F.lists gs)) b' n i' = r'
  generalize Comp.run cfg sl (N + 1) (onCells D) (some gs) b n i = r
  rintro (⟨hk⟩ | -)
  · exact .inl ⟨_, _, rfl, rfl, hk.imp fun a b hab => ⟨hab.count, hab.time, hab.pops, hab.phi⟩⟩
  · exact .inr ⟨_, _, rfl, rfl⟩

/-- C130.  For the compiled programs. -/
theorem C130_compiled_program {cfg cfg' : Cfg K V (Part K g ρ) ((τ × Vec K g) × Scratch K) (List (Vec K g))} {d d' : Nat → Nat} {C C' nVerts : Nat}
    (hF : F.Valid) (h : SameMesh hg F D D' sh sh') (hD : Triangulation hg D) (hn : Numbered D nVerts)
    (hm : Meshed D sh N) (hm' : Meshed D' sh' N) (he : 0 < eps)
    (hl : ∀ i ≤ N, Linked D (fun i => OnSide D marker lo i ∨ OnSide D marker hi i) i)
    (h1 : dd.lookup "rmin" = some (lo, .num v0)) (h2 : dd.lookup "rmax" = some (hi, .num vN))
    (h1' : dd'.lookup "rmin" = some (lo, .num (F.volt v0))) (h2' : dd'.lookup "rmax" = some (hi, .num (F.volt vN)))
    {cm cm' : CppMesh K} (e : buildCpp D nVerts pmarker = .ok cm) (e' : buildCpp D' nVerts pmarker = .ok cm')
    (hs : createOn eps D sh N marker dd = .ok s) (hs' : createOn (F.perm eps) D' sh' N marker dd' = .ok s')
    {L : Layout K g} (hL : L.Right) (hbc : ∀ sn, SameBC F (bc sn) (bc' sn)) (hq : ∀ sn, qom' sn = F.ratio (qom sn))
    (hmv : cfg.move = CppLoop.cppMove (le_refl g) L cm bc maxCross cfg.dt qom (fun _ f q => (f[q.cell.toNat]?).map (fun e => -e)))
    (hmv' : cfg'.move = CppLoop.cppMove (le_refl g) L cm' bc' maxCross cfg'.dt qom' (fun _ f q => (f[q.cell.toNat]?).map (fun e => -e)))
    (hdt : cfg'.dt = F.time * cfg.dt) (hsrc : SameCppSources F cfg.sources cfg'.sources)
    (hP : PlasmaOn cfg D sh N marker s d C) (hP' : PlasmaOn cfg' D' sh' N marker s' d' C')
    (hw : ∀ q, cfg'.A.weight (F.part q) = cfg.A.weight q) (hf : cfg'.factor = cfg.factor)
    {sl n : Nat} (hsl : 2 ≤ sl) (hc : CppLoop.GoodEvery cfg) (hc' : CppLoop.GoodEvery cfg') {skip skip' : Int} (hsk : skip ≠ 0) (hsk' : skip' ≠ 0)
    {st st' : CppLoop.State K V (Part K g ρ) ((τ × Vec K g) × Scratch K) (List (Vec K g))}
    {b b' : List K} {i i' i0 : Ideal K V (Part K g ρ) ((τ × Vec K g) × Scratch K)} {is : List (Ideal K V (Part K g ρ) ((τ × Vec K g) × Scratch K))}
    (hi : SeenFrom F i i') (hside : i'.side.1 = (i.side.1.1, F.move i.side.1.2))
    (hfr : CppLoop.Fresh sl (N + 1) C skip st i b) (hfr' : CppLoop.Fresh sl (N + 1) C' skip' st' i' b')
    (hwr : st.file = none → cfg.partEvery = none) (hwr' : st'.file = none → cfg'.partEvery = none) {gs : List (String × List (Part K g ρ))}
    (hr : Comp.run cfg sl (N + 1) (onCells D) (some gs) b n i = .ok (i0, is)) :
    ∃ t t', CppLoop.run cfg (some gs) n st = .ok t ∧ CppLoop.run cfg' (some (F.lists gs)) n st' = .ok t' ∧
      t'.count = t.count ∧ t'.time = F.time * t.time ∧ t'.solver.phi = t.solver.phi.map F.volt ∧
      List.Forall₂ (fun sp sp' => sp'.name = sp.name ∧ ∃ xs, CStores sp.sap xs ∧ CStores sp'.sap (xs.map F.part)) t.sps t'.sps := by
  rcases C130_compiled hF h hD hn hm hm' he hl h1 h2 h1' h2' e e' hs hs' hL hbc hq hmv hmv' hdt hsrc hP hP' hw hf sl n gs b b' hi hside with
    ⟨r, ⟨i0', is'⟩, a1, a2, a3⟩ | ⟨_, _, a1, -⟩
  · rw [hr] at a1
    cases a1
    have k := C109_run hsl hc (hP.goodMesh hm) hsk n (some gs) hfr hwr
    have k' := C109_run hsl hc' (hP'.goodMesh hm') hsk' n (some (F.lists gs)) hfr' hwr'
    rw [hr] at k
    rw [a2] at k'
    obtain ⟨-, t, et, o⟩ := k
    obtain ⟨-, t', et', o'⟩ := k'
    have hlast : SeenFrom F (lastOf i0 is) (lastOf i0' is') := last_forall₂ a3
    refine ⟨t, t', et, et', ?_, ?_, ?_, ?_⟩
    · rw [o.count, o'.count]; exact hlast.count
    · rw [o.time, o'.time]; exact hlast.time
    · rw [o.phi, o'.phi]; exact hlast.phi
    · have := o'.particles
      rw [hlast.pops] at this
      exact stored_alike (F := F) (nm := fun sp : CppLoop.Sp K V (Part K g ρ) => sp.name) (nm' := fun sp : CppLoop.Sp K V (Part K g ρ) => sp.name)
        (P := fun sp : CppLoop.Sp K V (Part K g ρ) => CStores sp.sap) (P' := fun sp : CppLoop.Sp K V (Part K g ρ) => CStores sp.sap) o.particles this
  · rw [hr] at a1
    cases a1

end

/-! ### The two triangles, seen by someone else -/

/-- Axes turned by a quarter, with another origin; the old units are six units of length, three of time and two of charge. -/
def otherFrame : Frame ℚ 2 := ⟨fun v => ![-v 1, v 0], ![5, -3], 6, 3, 1, 2⟩

theorem other_valid : otherFrame.Valid := by
  refine ⟨fun v w => ?_, fun a v => ?_, fun v w => ?_, by decide +kernel, by decide +kernel, by decide +kernel, by decide +kernel⟩
  · funext k
    fin_cases k <;> simp [otherFrame] <;> ring
  · funext k
    fin_cases k <;> simp [otherFrame]
  · simp [otherFrame, dot, Fin.sum_univ_two]
    ring

/-- Corners (5,9), (-1,3), (5,-3) and (11,3). -/
def otherKite : DMesh ℚ 2 where
  cells := (kiteCells false).map fun c => { c with normal := fun k => ![-(c.normal k 1), c.normal k 0, 0] }
  coord v := if v = 0 then ![5, 9] else if v = 1 then ![-1, 3] else if v = 2 then ![5, -3] else ![11, 3]
  attached := (kite false).attached

def otherShape : Shape ℚ 2 := ⟨fun c k => ![-(kiteGrad false c.index k 1) / 6, kiteGrad false c.index k 0 / 6], fun _ => 36⟩

theorem other_mesh : SameMesh (by decide) otherFrame (kite false) otherKite (kiteShape false) otherShape := by
  refine ⟨?_, fun v => ?_, rfl⟩
  · have : ∀ l : List (DSimplex ℚ), List.Forall₂ (fun c c' => c'.index = c.index ∧ c'.verts = c.verts ∧ c'.facets = c.facets ∧
        (∀ k ≤ 2, cutNormal (by decide : 2 ≤ 3) (c'.normal k) = otherFrame.turn (cutNormal (by decide : 2 ≤ 3) (c.normal k))) ∧
        otherShape.vol c' = otherFrame.len ^ 2 * (kiteShape false).vol c) l
        (l.map fun c => { c with normal := fun k => ![-(c.normal k 1), c.normal k 0, 0] }) := by
      intro l
      induction l with
      | nil => exact .nil
      | cons c l ih =>
        refine .cons ⟨rfl, rfl, rfl, fun k _ => ?_, by simp [otherShape, otherFrame, kiteShape]; norm_num⟩ ih
        funext j
        fin_cases j <;> rfl
    exact this _
  · simp only [kite, otherKite]
    split_ifs <;> first | (exfalso; assumption) | (unfold Frame.pos otherFrame; funext k; fin_cases k <;> simp <;> norm_num)

theorem other_meshed : Meshed otherKite otherShape 3 := by
  refine ⟨?_, ?_, ?_, ?_⟩
  all_goals
    intro c hc
    simp only [otherKite, kiteCells, List.map_cons, List.map_nil, List.mem_cons, List.not_mem_nil, or_false] at hc
    rcases hc with rfl | rfl
  all_goals first | decide | (unfold otherShape; decide +kernel)

def otherBCs : List (String × Int × Val ℚ) := [("rmax", 2, .num 2), ("rmin", 1, .num 0)]

abbrev otherSolver : Solver ℚ := madeOn (otherFrame.perm 1) otherKite otherShape 3 kiteMarks 1 2 (otherFrame.volt 0) (otherFrame.volt 1)

theorem other_solves (b : List ℚ) (hb : b.length = 3 + 1) : Solves 3 otherSolver.A b (kiteSolve b) := by
  have a : ∀ i ≤ 3, ∀ j ≤ 3, otherSolver.A i j = kiteSolver.A i j := by decide +kernel
  obtain ⟨h1, h2⟩ := kite_solves b hb
  refine ⟨h1, fun i hi => ?_⟩
  rw [← h2 i hi]
  refine Finset.sum_congr rfl fun j hj => ?_
  rw [a i hi j (by simpa [Nat.lt_succ_iff] using hj)]

def otherMesh : Mesh ℚ 2 :=
  ((buildMesh (by decide) otherKite 0 (fun F => if F = 1 then 0 else 1)).toOption).getD ⟨fun _ => none, fun _ => 0⟩

/-- The simulation `kiteCfg` in the other units. -/
def otherCfg : Cfg ℚ ℚ KitePart (Unit × Vec ℚ 2) (List (Vec ℚ 2)) :=
  { kiteCfg with
    dt := 3 / 2
    move := pyMove (le_refl 2) otherMesh (fun _ => kiteSink) 10 (3 / 2) (fun _ => -2) (fun _ f q => (f[q.cell.toNat]?).map (fun e => -e))
    SD := meshSpace otherKite otherShape (fun q => q.cell.toNat) (fun q => q.x)
    bc := applyVecOn (touches otherKite kiteMarks) otherSolver.bcs
    fieldOf := negEOn otherKite otherShape }

theorem other_plasma : PlasmaOn otherCfg otherKite otherShape 3 kiteMarks otherSolver (fun k => k) 2 := by
  refine ⟨rfl, rfl, other_solves, rfl, ?_, fun _ => rfl, rfl, ⟨fun _ _ => rfl, fun _ _ _ _ h => h, fun _ h => h⟩⟩
  intro k c hk
  match k with
  | 0 => cases hk; rfl
  | 1 => cases hk; rfl
  | k + 2 => cases hk

theorem other_bcs : otherBCs.lookup "rmin" = some (1, .num (otherFrame.volt 0)) ∧ otherBCs.lookup "rmax" = some (2, .num (otherFrame.volt 1)) := by
  have h0 : otherFrame.volt 0 = 0 := by decide +kernel
  have h1 : otherFrame.volt 1 = 2 := by decide +kernel
  rw [h0, h1]
  exact ⟨rfl, rfl⟩

theorem other_sink : SameBC otherFrame kiteSink kiteSink := fun _ _ _ => rfl

example := C130_callbacks (ρ := Nat) (τ := Unit) other_valid user2De [("rmin", 1), ("rmax", 2)] ["test_electrons", "He"] "test_electrons"

-- A reflected test electron in both frames.
example : callBC (acting user2De) [("rmin", 1), ("rmax", 2)] ["test_electrons", "He"] 1 "test_electrons"
    ((), (⟨kitePart 1 0 2 3 0, 4, 1 / 2, some ![1, 0], ![4, 6]⟩ : BCall ℚ 2 2 Nat)) =
    .ok ((), { kitePart 1 0 2 3 0 with x := ![-3, 0], u := ![-2, 3] }) := by
  simp [callBC, bcDict, invName, chooseBC, acting, user2De, attrs, Act.run, bcReflect, kitePart, List.lookup, dot, Fin.sum_univ_two]
  norm_num
  funext k
  fin_cases k
  rfl

theorem kite_on : (onCells (kite false) : Part ℚ 2 Nat → Bool) = onKite := by
  funext q
  simp only [onCells, onKite, kite, kiteCells, List.any_cons, List.any_nil, Bool.or_false]
  rw [Bool.eq_iff_iff]
  simp only [Bool.or_eq_true, decide_eq_true_eq]
  omega

/-- C130 for any number of steps and any initial particles. -/
theorem other_run (n : Nat) (gs : List (String × List KitePart)) (i : Ideal ℚ ℚ KitePart (Unit × Vec ℚ 2)) (b b' : List ℚ) :
    Ideal.run otherCfg 2 4 (onCells otherKite) (some (otherFrame.lists gs)) b' n (otherFrame.state i) =
      (Ideal.run kiteCfg 2 4 (onCells (kite false)) (some gs) b n i).map (fun r => (otherFrame.state r.1, r.2.map otherFrame.state)) := by
  obtain ⟨M, e, -⟩ := build_ok (hg := (by decide : 2 ≤ 3)) kite_triangulation.manifold 0 (fun F => if F = 1 then 0 else 1)
  obtain ⟨M', e', -⟩ := same_built other_mesh e
  have hM : kiteMesh = M := by unfold kiteMesh; rw [e]; rfl
  have hM' : otherMesh = M' := by unfold otherMesh; rw [e']; rfl
  exact C130_run (eps := 1) (dd := kiteBCs) (dd' := otherBCs) other_valid other_mesh (kite_meshed false) other_meshed one_pos (kite_linked false)
    rfl rfl other_bcs.1 other_bcs.2 e e' rfl (createOn_eq other_bcs.1 other_bcs.2) (cfg := kiteCfg) (cfg' := otherCfg)
    (bc := fun _ => kiteSink) (bc' := fun _ => kiteSink) (fun _ => other_sink) (qom := fun _ => -1) (qom' := fun _ => -2)
    (fun _ => by simp [Frame.ratio, otherFrame]) (maxCross := 10) (by rw [← hM]; rfl) (by rw [← hM']; rfl)
    (by simp [otherCfg, kiteCfg, otherFrame]; norm_num) .nil kite_plasma other_plasma (fun _ => rfl) rfl 2 n gs b b' i

-- The two runs, step by step.
example : kiteView (Ideal.run otherCfg 2 4 (onCells otherKite) (some (otherFrame.lists kiteInit)) [0, 0, 0, 0] 2 (otherFrame.state kiteIdeal)) =
    (kiteView (kiteRun 2)).map (fun l => l.map (fun a => (a.1.map (fun q => (5 - 6 * q.2.1, 6 * q.1 - 3, q.2.2)), a.2.map (fun v => 2 * v)))) := by
  decide +kernel

def otherState (n : Nat) : State ℚ ℚ KitePart (Unit × Vec ℚ 2) (List (Vec ℚ 2)) where
  count := 0
  time := 3 * 0
  sps := [⟨"e", SAP.new 2 (kitePart 0 0 0 0 0), 2 * -1, 1 * 1, 1, [0, 0, 0, 0], [0, 0]⟩]
  side := ((), otherFrame.move ![0, 0])
  field := []
  solver := ⟨[0, 0, 0, 0], [0, 0, 0, 0], [0, 0, 0, 0]⟩
  writer := some (Output.newWriter 2 2 0)
  hist := some ⟨List.replicate (n + 1) ⟨0, 0, []⟩, 0, 1⟩
  phiLog := []
  cellLog := []

theorem other_fresh (n : Nat) : Fresh 2 (3 + 1) 2 n ⟨0, 0, []⟩ (otherState n) (otherFrame.state kiteIdeal) [0, 0, 0, 0] := by
  refine ⟨rfl, rfl, rfl, rfl, rfl, ?_, ?_, ?_, ?_, rfl, rfl⟩
  · exact .cons ⟨rfl, rfl, rfl, rfl, ⟨SAP.Reachable.new 2 _ (by decide), SAP.new_sim 2 _ (by decide), rfl⟩,
      rfl, rfl⟩ .nil
  · intro p hp
    simp only [kiteIdeal, Frame.state, Frame.pop, List.map_cons, List.map_nil, List.mem_singleton] at hp
    rw [hp]
  · exact Or.inr ⟨_, rfl, newWriter_ready 2 2 (by decide) 0, rfl, by simp [Output.newWriter, kiteIdeal, Frame.state]⟩
  · simp [HistIs, otherState]

theorem other_goodCfg : GoodCfg otherCfg := by
  obtain ⟨a1, a2, a3, a4, a5⟩ := kite_goodCfg
  exact ⟨a1, a2, a3, a4, a5⟩

-- C130 for the two programs.
example : ∃ t t', run kiteCfg (some kiteInit) 2 (kiteState 2) = .ok t ∧ run otherCfg (some (otherFrame.lists kiteInit)) 2 (otherState 2) = .ok t' ∧
    t'.time = 3 * t.time ∧ List.Forall₂ (fun sp sp' => sp'.name = sp.name ∧ ∃ xs, Stores sp.sap xs ∧ Stores sp'.sap (xs.map otherFrame.part)) t.sps t'.sps := by
  obtain ⟨M, e, -⟩ := build_ok (hg := (by decide : 2 ≤ 3)) kite_triangulation.manifold 0 (fun F => if F = 1 then 0 else 1)
  obtain ⟨M', e', -⟩ := same_built other_mesh e
  have hM : kiteMesh = M := by unfold kiteMesh; rw [e]; rfl
  have hM' : otherMesh = M' := by unfold otherMesh; rw [e']; rfl
  obtain ⟨⟨i0, is⟩, hr⟩ : ∃ r, kiteRun 2 = .ok r := by
    have : (kiteRun 2).toOption.isSome = true := by decide +kernel
    cases hk : kiteRun 2 with
    | ok r => exact ⟨r, rfl⟩
    | error f => rw [hk] at this; cases this
  rw [kiteRun, ← kite_on] at hr
  obtain ⟨t, t', k1, k2, -, k4, -, k6, -⟩ := C130_program (eps := 1) (dd := kiteBCs) (dd' := otherBCs) other_valid other_mesh (kite_meshed false) other_meshed one_pos (kite_linked false)
    rfl rfl other_bcs.1 other_bcs.2 e e' rfl (createOn_eq other_bcs.1 other_bcs.2) (cfg := kiteCfg) (cfg' := otherCfg)
    (bc := fun _ => kiteSink) (bc' := fun _ => kiteSink) (fun _ => other_sink) (qom := fun _ => -1) (qom' := fun _ => -2)
    (fun _ => by simp [Frame.ratio, otherFrame]) (maxCross := 10) (by rw [← hM]; rfl) (by rw [← hM']; rfl)
    (by simp [otherCfg, kiteCfg, otherFrame]; norm_num) .nil kite_plasma other_plasma (fun _ => rfl) rfl kite_goodCfg other_goodCfg (kite_fresh 2) (other_fresh 2)
    (by simp [kiteState]) (by simp [otherState]) hr
  exact ⟨t, t', k1, k2, k4, k6⟩

/-! ### The compiled program -/

def otherCpp : CppMesh ℚ :=
  ((buildCpp otherKite 4 (fun F => if F = 1 then 0 else 1)).toOption).getD ⟨[], fun _ => none, fun _ => 0⟩

def otherCppCfg : Cfg ℚ ℚ KitePart ((Unit × Vec ℚ 2) × Scratch ℚ) (List (Vec ℚ 2)) :=
  { kiteCppCfg with
    dt := 3 / 2
    move := CppLoop.cppMove (le_refl 2) layoutXY otherCpp (fun _ => kiteSink) 10 (3 / 2) (fun _ => -2) (fun _ f q => (f[q.cell.toNat]?).map (fun e => -e))
    SD := otherCfg.SD
    bc := otherCfg.bc
    fieldOf := otherCfg.fieldOf }

def otherCppIdeal : Ideal ℚ ℚ KitePart ((Unit × Vec ℚ 2) × Scratch ℚ) :=
  ⟨0, 0, [⟨"e", -2, 1, 1, ⟨[], false⟩⟩], (((), ![0, 0]), fun _ => 7), []⟩

theorem other_seen : SeenFrom otherFrame kiteCppIdeal otherCppIdeal := by
  refine ⟨rfl, by simp [kiteCppIdeal, otherCppIdeal], ?_, rfl⟩
  simp [kiteCppIdeal, otherCppIdeal, Frame.pop, otherFrame]

def otherCppState : CppLoop.State ℚ ℚ KitePart ((Unit × Vec ℚ 2) × Scratch ℚ) (List (Vec ℚ 2)) :=
  { kiteCppState with
    sps := [⟨"e", CSAP.new 2 (kitePart 0 0 0 0 0), -2, 1, 1, [0, 0, 0, 0], [0, 0]⟩]
    side := (((), ![0, 0]), fun _ => 7) }

theorem otherCpp_fresh : CppLoop.Fresh 2 (3 + 1) 2 2 otherCppState otherCppIdeal [0, 0, 0, 0] := by
  refine ⟨rfl, rfl, rfl, rfl, rfl, ?_, ?_, ?_, ?_, rfl, rfl⟩
  · have h := CppProgram.start_rel (sl := 2) (by decide) (kitePart 0 0 0 0 0) [true]
    cases h with
    | cons h _ => exact .cons ⟨rfl, rfl, rfl, rfl, h, rfl, rfl⟩ .nil
  · intro p hp
    simp only [otherCppIdeal, List.mem_singleton] at hp
    rw [hp]
  · exact .inr ⟨-1, rfl, by decide⟩
  · exact .inr rfl

-- C130 for the two compiled programs.
example : ∃ t t', CppLoop.run kiteCppCfg (some kiteInit) 2 kiteCppState = .ok t ∧
    CppLoop.run otherCppCfg (some (otherFrame.lists kiteInit)) 2 otherCppState = .ok t' ∧
    t'.time = 3 * t.time ∧ List.Forall₂ (fun sp sp' => sp'.name = sp.name ∧ ∃ xs, CStores sp.sap xs ∧ CStores sp'.sap (xs.map otherFrame.part)) t.sps t'.sps := by
  obtain ⟨M, cm, -, ecm, -⟩ := C107_same_mesh kite_triangulation kite_numbered 0 (fun F => if F = 1 then 0 else 1)
  obtain ⟨M', cm', -, ecm', -⟩ := C107_same_mesh (same_triangulation other_valid other_mesh kite_triangulation) (same_numbered other_mesh kite_numbered) 0
    (fun F => if F = 1 then 0 else 1)
  have hcm : kiteCpp = cm := by unfold kiteCpp; rw [ecm]; rfl
  have hcm' : otherCpp = cm' := by unfold otherCpp; rw [ecm']; rfl
  have hpl : PlasmaOn kiteCppCfg (kite false) (kiteShape false) 3 kiteMarks kiteSolver (fun k => k) 2 := by
    obtain ⟨a1, a2, a3, a4, a5, a6, a7, a8⟩ := kite_plasma
    exact ⟨a1, a2, a3, a4, a5, a6, a7, a8⟩
  have hpl' : PlasmaOn otherCppCfg otherKite otherShape 3 kiteMarks otherSolver (fun k => k) 2 := by
    obtain ⟨a1, a2, a3, a4, a5, a6, a7, a8⟩ := other_plasma
    exact ⟨a1, a2, a3, a4, a5, a6, a7, a8⟩
  obtain ⟨⟨i0, is⟩, hr⟩ : ∃ r, Comp.run kiteCppCfg 2 4 onKite (some kiteInit) [0, 0, 0, 0] 2 kiteCppIdeal = .ok r := by
    have : (kiteCppView 2).isSome = true := by decide +kernel
    unfold kiteCppView at this
    cases hk : Comp.run kiteCppCfg 2 4 onKite (some kiteInit) [0, 0, 0, 0] 2 kiteCppIdeal with
    | ok r => exact ⟨r, rfl⟩
    | error f => rw [hk] at this; cases this
  rw [← kite_on] at hr
  obtain ⟨t, t', k1, k2, -, k4, -, k6⟩ := C130_compiled_program (eps := 1) (dd := kiteBCs) (dd' := otherBCs) other_valid other_mesh kite_triangulation
    kite_numbered (kite_meshed false) other_meshed one_pos (kite_linked false)
    rfl rfl other_bcs.1 other_bcs.2 ecm ecm' rfl (createOn_eq other_bcs.1 other_bcs.2) (cfg := kiteCppCfg) (cfg' := otherCppCfg)
    (L := layoutXY) C66_layouts.2.1 (bc := fun _ => kiteSink) (bc' := fun _ => kiteSink) (fun _ => other_sink) (qom := fun _ => -1) (qom' := fun _ => -2)
    (fun _ => by simp [Frame.ratio, otherFrame]) (maxCross := 10) (by rw [← hcm]; rfl) (by rw [← hcm']; rfl)
    (by simp [otherCppCfg, kiteCppCfg, otherFrame]; norm_num) .nil hpl hpl' (fun _ => rfl) rfl (le_refl 2)
    ⟨by simp [kiteCppCfg], by simp [kiteCppCfg], by simp [kiteCppCfg]⟩
    ⟨by simp [kiteCppCfg, otherCppCfg], by simp [kiteCppCfg, otherCppCfg], by simp [kiteCppCfg, otherCppCfg]⟩
    (skip := 2) (skip' := 2) (by decide) (by decide) other_seen (by simp [kiteCppIdeal, otherCppIdeal, Frame.move, otherFrame]) kiteCpp_fresh otherCpp_fresh
    (by simp [kiteCppState]) (by simp [otherCppState, kiteCppState]) hr
  exact ⟨t, t', k1, k2, k4, k6⟩

end Dt
