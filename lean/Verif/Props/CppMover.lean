import Verif.Lemmas.CppPass
import Verif.Lemmas.PassLog
import Verif.Props.CppStore
import Verif.Props.Mover

/-!
# Properties of the compiled movers: passes over a species (C65)

`cppPass skip adv s st` is a pass of a compiled mover over a species held in the compiled
container; `adv` is what happens to a single particle (arbitrary, possibly failing, with side
state), `skip` the test for particles that are dropped at once.
-/

set_option linter.unusedSectionVars false

namespace Dt
open SAP Spec CppMover

variable {σ α : Type}

/-! ### Invariants -/

theorem cstores_iff {s : CSAP α} (h : s.py.Inv) (xs : List α) :
    CStores s xs ↔ xs = s.py.contents := by
  have hpos : 0 < s.sl := h.out.pos
  have hn : s.py.getNumberOfItems = s.getNumberOfItems := by
    have := same_exec hpos (m := (.count : Method α)) trivial
    simpa [pyExec, cppExec, pure, Except.pure, Same] using this
  have hg : ∀ (i : Nat) (x : α), s.getItem i = .ok x ↔ s.py.getItem i = .ok x := by
    intro i x
    have := same_exec hpos (m := (.get i : Method α)) (by simp [Method.Safe])
    simp only [pyExec, cppExec, bind, Except.bind, pure, Except.pure] at this
    cases e1 : s.getItem i with
    | error _ =>
      rw [e1] at this
      cases e2 : s.py.getItem i with
      | error _ => simp
      | ok _ => rw [e2] at this; simp [Same] at this
    | ok _ =>
      rw [e1] at this
      cases e2 : s.py.getItem i with
      | error _ => rw [e2] at this; simp [Same] at this
      | ok _ =>
        rw [e2] at this
        simp only [Same, Reply.item.injEq, true_and] at this
        rw [this]
  rw [← stores_iff h]
  unfold CStores Stores
  rw [hn]
  simp only [hg]

theorem used_inv {s : CSAP α} (h : Used s) : s.py.Inv ∧ 2 ≤ s.sl := by
  induction h with
  | new sl junk h => exact ⟨new_inv sl junk (by omega), h⟩
  | @push s s' x r _ e ih =>
    obtain ⟨hi, hsl⟩ := ih
    have hpos : 0 < s.sl := by omega
    have := same_exec hpos (m := (.push x : Method α)) trivial
    simp only [pyExec, cppExec, e, bind, Except.bind, pure, Except.pure] at this
    refine ⟨?_, by rw [pushArray_sl _ _ _ _ e]; exact hsl⟩
    rcases pushBack_cases hi with hp | ⟨hf, hs⟩
    · obtain ⟨s'', e', hi', _⟩ := pushBack_ok hi x hp
      rw [e'] at this
      simp only [Same] at this
      rw [← this.1]; exact hi'
    · rw [pushBack_err x hf hs] at this
      simp [Same] at this
  | @initOut s _ ih =>
    obtain ⟨hi, hsl⟩ := ih
    have hpos : 0 < s.sl := by omega
    have h := same_exec hpos (m := (.initOut : Method α)) trivial
    simp only [pyExec, cppExec, pure, Except.pure, Same] at h
    refine ⟨?_, ?_⟩
    · rw [← h.1, initOutLoop_eq]; exact withCur_inv hi 0
    · have : s.initOutLoop.1.py.sl = s.py.sl := by
        rw [← h.1, initOutLoop_eq]; exact setArr_sl _ _ _
      change s.initOutLoop.1.sl = s.sl at this
      rw [this]; exact hsl
  | @next s _ ih =>
    obtain ⟨hi, hsl⟩ := ih
    have hpos : 0 < s.sl := by omega
    have h := getNext_py hpos .Out
    have e : (s.py.getNextSegment .Out).1 = s.py.setArr (s.py.sel .Out)
        { s.py.arr (s.py.sel .Out) with cur := (s.py.arr (s.py.sel .Out)).cur + 1 } := by
      unfold getNextSegment
      dsimp only
      split
      · rfl
      · split
        · split <;> rfl
        · rfl
    have h1 : (s.getNextSegment .Out).1.py = (s.py.getNextSegment .Out).1 := by rw [h]
    rw [e] at h1
    refine ⟨?_, ?_⟩
    · rw [h1]
      exact setArr_inv hi _ (WF_cur (hi.arr _) _)
    · have : (s.getNextSegment .Out).1.py.sl = s.py.sl := by rw [h1, setArr_sl]
      change (s.getNextSegment .Out).1.sl = s.sl at this
      rw [this]; exact hsl
  | @write s s' v i x _ hv e ih =>
    obtain ⟨hi, hsl⟩ := ih
    have hpos : 0 < s.sl := by omega
    have h := same_exec hpos (m := .write v (i + 1) i x) ⟨hv, by omega, by omega⟩
    simp only [pyExec, cppExec, e, bind, Except.bind, pure, Except.pure] at h
    rw [if_pos (by omega)] at h
    refine ⟨?_, ?_⟩
    · cases e2 : s.py.viewSet v i x with
      | error _ => rw [e2] at h; simp [Same] at h
      | ok t =>
        rw [e2] at h
        simp only [Same] at h
        rw [← h.1]
        exact viewSet_inv hi e2
    · have := cppExec_sl (s := s) CSAP.pushArray pushArray_sl (m := .write v (i + 1) i x)
        (s' := s') (r := .unit) (by simp [cppExec, e, bind, Except.bind, pure, Except.pure])
      rw [this]; exact hsl
  | @pass σ skip adv s s' st st' _ hn e ih =>
    obtain ⟨hi, hsl⟩ := ih
    have hpos : 0 < s.sl := by omega
    have hcnt : s.py.getNumberOfItems = s.getNumberOfItems := by
      have := same_exec hpos (m := (.count : Method α)) trivial
      simpa [pyExec, cppExec, pure, Except.pure, Same] using this
    by_cases hne : s.py.contents = []
    · exfalso
      obtain ⟨t, e1, _⟩ := initInoutLoop_empty hi hne
      rw [initInout_py hpos] at e1
      have e2 := congrArg Prod.snd e1
      unfold cppPass at e
      have e3 : s.initInoutLoop = (s.initInoutLoop.1, s.initInoutLoop.2) := rfl
      simp only at e2
      rw [e3, e2] at e
      cases e
    · have key := cppPass_post skip adv hi hne st (by
        have := contents_length hi
        omega)
      cases hp : pass (skipping skip adv) st 0 0 s.py.contents with
      | error _ => rw [hp] at key; simp only [] at key; rw [key] at e; cases e
      | ok r =>
        rw [hp] at key
        obtain ⟨s1, e1, post⟩ := key
        rw [e1] at e
        simp only [Except.ok.injEq, Prod.mk.injEq] at e
        obtain ⟨rfl, -⟩ := e
        have := post (.inr hsl)
        exact ⟨this.inv, by rw [this.sl]; exact hsl⟩

/-- A compiled container with the particles `xs` in segments of `sl`, for examples. -/
def pushAll {β : Type} (sl : Nat) (junk : β) (xs : List β) : CSAP β :=
  xs.foldl (fun s x => match s.pushArray x with | .ok (s', _) => s' | .error _ => s)
    (CSAP.new sl junk)

theorem used_pushAll {β : Type} (sl : Nat) (h : 2 ≤ sl) (junk : β) (xs : List β) :
    Used (pushAll sl junk xs) := by
  unfold pushAll
  suffices ∀ s : CSAP β, Used s → Used (xs.foldl (fun s x => match s.pushArray x with
      | .ok (s', _) => s' | .error _ => s) s) from this _ (.new sl junk h)
  induction xs with
  | nil => intro s hs; exact hs
  | cons x xs ih =>
    intro s hs
    apply ih
    cases e : s.pushArray x with
    | error _ => simp only [e]; exact hs
    | ok r => obtain ⟨s', r⟩ := r; simp only [e]; exact .push hs e

/-- The same for numbers. -/
def demoCSAP (sl : Nat) (xs : List Nat) : CSAP Nat := pushAll sl 0 xs

theorem used_pushes (sl : Nat) (h : 2 ≤ sl) (xs : List Nat) : Used (demoCSAP sl xs) :=
  used_pushAll sl h 0 xs

/-! ### C65 -/

/-- **C65 (one pass).** A compiled pass over a species with particles `xs` does what the
specification `Spec.pass` does on that list: it fails if and as the per-particle code fails, and
otherwise the survivors are stored in order - also if there are none. -/
theorem C65_pass_refines_list (skip : α → Bool) (adv : Adv σ α) {s : CSAP α} (hu : Used s)
    {xs : List α} (hx : CStores s xs) (hne : xs ≠ []) (hbig : xs.length < 4294967296) (st : σ) :
    match Spec.pass (skipping skip adv) st 0 0 xs with
    | .error e => cppPass skip adv s st = .error e
    | .ok (st', ys) => ∃ s', cppPass skip adv s st = .ok (s', st') ∧ CStores s' ys ∧ Used s' := by
  obtain ⟨hi, hsl⟩ := used_inv hu
  have hxc := (cstores_iff hi xs).1 hx
  subst hxc
  have key := cppPass_post skip adv hi hne st hbig
  cases hp : pass (skipping skip adv) st 0 0 s.py.contents with
  | error _ => rw [hp] at key; exact key
  | ok r =>
    obtain ⟨st', ys⟩ := r
    rw [hp] at key
    obtain ⟨s', e, post⟩ := key
    have post := post (.inr hsl)
    refine ⟨s', e, (cstores_iff post.inv ys).2 post.contents.symm, .pass hu ?_ e⟩
    rw [hx.1]; exact_mod_cast hbig

/-- **C65 (steps).** Consecutive time steps compose, whatever the history of the container, and
also past a step in which the species dies out. -/
theorem C65_steps_compose (skip : α → Bool) (advs : List (Adv σ α)) {s : CSAP α} (hu : Used s)
    {xs : List α} (hx : CStores s xs) (hbig : xs.length < 4294967296) (st : σ) :
    match Spec.steps (advs.map (skipping skip)) st xs with
    | .error e => cppSteps skip advs s st = .error e
    | .ok (st', ys) => ∃ s', cppSteps skip advs s st = .ok (s', st') ∧ CStores s' ys ∧
        Used s' := by
  induction advs generalizing s st xs with
  | nil => exact ⟨s, rfl, hx, hu⟩
  | cons adv advs ih =>
    simp only [List.map_cons, Spec.steps, cppSteps, cppStep]
    by_cases h0 : xs = []
    · subst h0
      have hz : s.getNumberOfItems = 0 := by simpa using hx.1
      simp only [Spec.pass, hz, if_true, bind, Except.bind]
      exact ih hu hx hbig st
    · have hz : s.getNumberOfItems ≠ 0 := by
        have := List.length_pos_iff.2 h0
        rw [hx.1]; omega
      have key := C65_pass_refines_list skip adv hu hx h0 hbig st
      rw [if_neg hz]
      cases hp : pass (skipping skip adv) st 0 0 xs with
      | error _ =>
        rw [hp] at key
        simp only [] at key ⊢
        rw [key]; rfl
      | ok r =>
        obtain ⟨st1, ys⟩ := r
        rw [hp] at key
        obtain ⟨s1, e1, hx1, hu1⟩ := key
        simp only [bind, Except.bind, e1]
        exact ih hu1 hx1 (by have := pass_length hp; omega) st1

/-- **C65 (adding particles after a pass).** Appending a particle to the survivors `ys` aborts the
process exactly if `ys` fill their segments completely and the last particle that was moved was
deleted; otherwise any number of particles can be appended - in particular if all were lost. -/
theorem C65_push_after_pass_exact (skip : α → Bool) (adv : Adv σ α) {s s' : CSAP α} (hu : Used s)
    {xs : List α} (hx : CStores s xs) (hne : xs ≠ []) (hbig : xs.length < 4294967296) {st st' : σ}
    {ys : List α} (hp : Spec.pass (skipping skip adv) st 0 0 xs = .ok (st', ys))
    (e : cppPass skip adv s st = .ok (s', st')) :
    if ys ≠ [] ∧ ys.length % s.sl = 0 ∧ lastMoved skip adv st 0 0 xs = some false then
      ∀ x, s'.pushArray x = .error .abort
    else ∀ x, ∃ s'', s'.pushArray x =
        .ok (s'', (((ys.length % s.sl : Nat) : Int), (ys.length : Int))) ∧
      CStores s'' (ys ++ [x]) ∧ Used s'' := by
  obtain ⟨hi, hsl⟩ := used_inv hu
  have hxc := (cstores_iff hi xs).1 hx
  subst hxc
  have key := cppPass_post skip adv hi hne st hbig
  rw [hp] at key
  obtain ⟨s1, e1, post⟩ := key
  rw [e] at e1
  simp only [Except.ok.injEq, Prod.mk.injEq, and_true] at e1
  subst e1
  have post := post (.inr hsl)
  have hu' : Used s' := .pass hu (by rw [hx.1]; exact_mod_cast hbig) e
  have hpos' : 0 < s'.sl := by rw [post.sl]; omega
  have hsl' : s'.py.sl = s.sl := post.sl
  split
  · rename_i hc
    intro x
    have hns : ¬ s'.py.Synced := by rw [post.sync]; exact fun h => h hc
    have hf : s'.py.outA.fao = s'.py.sl := by
      rw [hsl']; exact post.full.2 ⟨hc.1, hc.2.1⟩
    have hout : s'.py.outA = (s'.arr s'.outSel).py := CSAP.py_arr s' s'.outSel
    rw [hout] at hf
    have hf' : (s'.arr s'.outSel).fao = s'.sl := by
      have : ((s'.arr s'.outSel).fao : Int) = (s'.sl : Int) := hf
      omega
    have hpro := pushPrologue_err (junk := s'.junk) (by rw [hout]; exact hf) hns
    rw [hout] at hpro
    rw [show s'.py.sl = s'.sl from rfl] at hpro
    rw [py_pushPrologue] at hpro
    unfold CSAP.pushArray
    dsimp only
    split
    · rename_i hcc
      rw [if_pos hcc] at hpro
      cases hpro
    · rfl
  · rename_i hc
    intro x
    have hs : s'.py.Synced := post.sync.2 hc
    obtain ⟨t, e2, hi2, hc2, _⟩ := pushBack_ok post.inv x (.inr hs)
    have := same_exec hpos' (m := (.push x : Method α)) trivial
    simp only [pyExec, cppExec, e2, bind, Except.bind, pure, Except.pure] at this
    cases e3 : s'.pushArray x with
    | error _ => rw [e3] at this; simp [Same] at this
    | ok r =>
      obtain ⟨s'', r1, r2⟩ := r
      rw [e3] at this
      simp only [Same, Reply.pair.injEq] at this
      obtain ⟨h1, h2, h3⟩ := this
      subst h1
      rw [post.contents, hsl'] at h2
      rw [post.contents] at h3 hc2
      refine ⟨s'', by rw [h2, h3], (cstores_iff hi2 _).2 hc2.symm, .push hu' e3⟩

/-- **C65 (the compiled and the Python movers agree).** Let the two containers hold the same
particles, and let the per-particle codes be the same.  Then the Python mover fails as the compiled
mover fails, and otherwise both hold the same particles afterwards; as long as no particle in the
storage carries the flag tested by `skip`, this includes the movers with that test. -/
theorem C65_agrees_with_python (skip : α → Bool) (adv : Adv σ α) {s : CSAP α} (hu : Used s)
    {p : SAP α} (hp : Reachable p) {xs : List α} (hx : CStores s xs) (hxp : Stores p xs)
    (hne : xs ≠ []) (hbig : xs.length < 4294967296) (hskip : ∀ x ∈ xs, skip x = false) (st : σ) :
    match Mover.meshPass adv p st with
    | .error e => cppPass skip adv s st = .error e
    | .ok (p', st') => ∃ s' ys, cppPass skip adv s st = .ok (s', st') ∧ CStores s' ys ∧
        Stores p' ys := by
  have hnp : p.getNumberOfItems ≠ 0 := by
    rw [hxp.1]; have := List.length_pos_iff.2 hne; omega
  have k1 := C11_pass_refines_list adv hp hnp xs hxp.1.symm hxp.2 st
  have k2 := C65_pass_refines_list skip adv hu hx hne hbig st
  have hsame : ∀ (ws : List α) (st : σ) (i o : Nat), (∀ x ∈ ws, skip x = false) →
      pass (skipping skip adv) st i o ws = pass adv st i o ws := by
    intro ws
    induction ws with
    | nil => intros; rfl
    | cons w ws ih =>
      intro st i o hw
      have hw0 : skip w = false := hw w (by simp)
      have hws : ∀ x ∈ ws, skip x = false := fun x hx => hw x (List.mem_cons_of_mem _ hx)
      have hskipw : skipping skip adv st i o (decide (o ≠ i)) w = adv st i o (decide (o ≠ i)) w := by
        simp [skipping, hw0]
      have ih' := fun st i o => ih st i o hws
      simp only [pass, hskipw]
      cases adv st i o (decide (o ≠ i)) w with
      | error _ => rfl
      | ok r =>
        obtain ⟨st1, p1, k⟩ := r
        cases k
        · exact ih' _ _ _
        · simp only; rw [ih']
  rw [hsame xs st 0 0 hskip] at k2
  cases hps : pass adv st 0 0 xs with
  | error e =>
    rw [hps] at k1 k2
    simp only [] at k1 k2
    rw [k1]; exact k2
  | ok r =>
    obtain ⟨st', ys⟩ := r
    rw [hps] at k1 k2
    obtain ⟨p', e1, c1, c2, -⟩ := k1
    obtain ⟨s', e2, c3, -⟩ := k2
    rw [e1]
    exact ⟨s', ys, e2, c3, c1, c2⟩

theorem skip_idle_pass (skip : α → Bool) (adv : Adv σ α)
    (ha : ∀ st i o ic p st' p', adv st i o ic p = .ok (st', p', true) → skip p' = false) :
    ∀ (ws : List α) (st : σ) (i o : Nat), (∀ x ∈ ws, skip x = false) →
      pass (skipping skip adv) st i o ws = pass adv st i o ws ∧
      ∀ st' ys, pass adv st i o ws = .ok (st', ys) → ∀ y ∈ ys, skip y = false := by
  intro ws
  induction ws with
  | nil =>
    intro st i o _
    refine ⟨rfl, fun st' ys h y hy => ?_⟩
    simp only [pass, Except.ok.injEq, Prod.mk.injEq] at h
    rw [← h.2] at hy; simp at hy
  | cons w ws ih =>
    intro st i o hw
    have hw0 : skip w = false := hw w (by simp)
    have hws : ∀ x ∈ ws, skip x = false := fun x hx => hw x (List.mem_cons_of_mem _ hx)
    have hskipw : skipping skip adv st i o (decide (o ≠ i)) w = adv st i o (decide (o ≠ i)) w := by
      simp [skipping, hw0]
    simp only [pass, hskipw]
    cases hd : adv st i o (decide (o ≠ i)) w with
    | error _ => exact ⟨rfl, by simp⟩
    | ok r =>
      obtain ⟨st1, p1, k⟩ := r
      cases k
      · exact ih _ _ _ hws
      · obtain ⟨i1, i2⟩ := ih st1 (i + 1) (o + 1) hws
        simp only
        rw [i1]
        refine ⟨rfl, fun st' ys h y hy => ?_⟩
        cases hq : pass adv st1 (i + 1) (o + 1) ws with
        | error _ => rw [hq] at h; cases h
        | ok q =>
          rw [hq] at h
          simp only [Except.ok.injEq, Prod.mk.injEq] at h
          rw [← h.2] at hy
          rcases List.mem_cons.1 hy with rfl | hy
          · exact ha _ _ _ _ _ _ _ hd
          · exact i2 _ _ hq y hy

/-- **C65 (dropping is idle).** If the per-particle code keeps only particles without the flag, as
all movers do, then starting from particles without the flag the test at the start of the loop
never drops a particle, in any number of steps. -/
theorem C65_skip_idle (skip : α → Bool) (advs : List (Adv σ α))
    (hadv : ∀ adv ∈ advs, ∀ st i o ic p st' p', adv st i o ic p = .ok (st', p', true) →
      skip p' = false) {xs : List α} (hx : ∀ x ∈ xs, skip x = false) (st : σ) :
    Spec.steps (advs.map (skipping skip)) st xs = Spec.steps advs st xs := by
  induction advs generalizing xs st with
  | nil => rfl
  | cons adv advs ih =>
    obtain ⟨h1, h2⟩ := skip_idle_pass skip adv (hadv adv (by simp)) xs st 0 0 hx
    simp only [List.map_cons, Spec.steps]
    rw [h1]
    cases hq : pass adv st 0 0 xs with
    | error _ => rfl
    | ok q =>
      simp only
      exact ih (fun a ha => hadv a (List.mem_cons_of_mem _ ha)) (h2 _ _ hq) _

/-- Non-vacuity: five particles in segments of two, the odd ones deleted, then the rest. -/
example : Used (demoCSAP 2 [2, 3, 4, 5, 6]) ∧
    (cppPass (fun _ => false) demoAdv (demoCSAP 2 [2, 3, 4, 5, 6]) ()).map
      (fun r => (r.1.getNumberOfItems, (List.range 3).map (fun i => (r.1.getItem i).toOption))) =
      .ok (3, [some 102, some 104, some 106]) ∧
    ((cppSteps (fun _ => false) [demoAdv, fun _ _ _ _ p => .ok ((), p, false), demoAdv]
        (demoCSAP 2 [2, 3, 4, 5, 6]) ()).bind
      (fun r => (r.1.pushArray 7).map (fun r => (r.1.getNumberOfItems, r.2)))) =
      .ok (1, (0, 0)) :=
  ⟨used_pushes 2 (by omega) _, by decide +kernel, by decide +kernel⟩

/-- Non-vacuity: the flagged particle 3 is dropped, and the abort of `C65_push_after_pass_exact`
occurs. -/
example : (cppPass (fun p => p = 3) (fun (_ : Unit) _ _ _ p => .ok ((), p, p ≠ 4))
      (demoCSAP 2 [1, 2, 3, 4]) ()).bind (fun r => (r.1.pushArray 7).map (·.2)) = .error .abort ∧
    (cppPass (fun p => p = 3) (fun (_ : Unit) _ _ _ p => .ok ((), p, p ≠ 4))
      (demoCSAP 2 [1, 2, 3, 4]) ()).map (fun r => r.1.getNumberOfItems) = .ok 2 ∧
    lastMoved (fun p => p = 3) (fun (_ : Unit) _ _ _ p => .ok ((), p, p ≠ 4)) () 0 0 [1, 2, 3, 4] =
      some false := by decide +kernel

/-- With segments of length 1 the compiled container does not represent "no particles": after the
loss of the only particle it claims 4294967296. -/
theorem C65_false_segment_length_one :
    (cppPass (fun _ => false) (fun (_ : Unit) _ _ _ p => .ok ((), p, false)) (demoCSAP 1 [1]) ()).map
      (fun r => r.1.getNumberOfItems) = .ok 4294967296 := by decide +kernel

/-! ### C13: the compiled uniform-field mover -/

/-- **C13 (compiled mover).** The compiled `advance_charged_species_in_uniform_fields` stores the
moved image of every particle, in order, and the count stays right for every population (the
double count of the Python mover, `C13_false`, is absent). -/
theorem C13_cpp_uniform (f : α → α) {s : CSAP α} (hu : Used s) {xs : List α} (hx : CStores s xs)
    (hne : xs ≠ []) (hbig : xs.length < 4294967296) :
    ∃ s', cppUniform f s = .ok s' ∧ CStores s' (xs.map f) ∧ Used s' := by
  have key := C65_pass_refines_list (fun _ => false)
    (fun (_ : Unit) _ _ _ p => .ok ((), f p, true)) hu hx hne hbig ()
  have hp : ∀ (ws : List α) (i o : Nat), pass (skipping (fun _ => false)
      (fun (_ : Unit) _ _ _ p => .ok ((), f p, true))) () i o ws = .ok ((), ws.map f) := by
    intro ws
    induction ws with
    | nil => intros; rfl
    | cons w ws ih =>
      intro i o
      simp only [pass, skipping, Bool.false_eq_true, if_false] at ih ⊢
      rw [ih]; rfl
  rw [hp] at key
  obtain ⟨s', e, h1, h2⟩ := key
  refine ⟨s', ?_, h1, h2⟩
  unfold cppUniform
  rw [e]; rfl

/-- **C13 fails for the compiled mover**: a particle flagged for deletion (here: a record ≥ 200) is
moved and kept, while the Python mover drops it; and a species without particles makes it fail. -/
theorem C13_false_cpp :
    (cppUniform (· + 100) (demoCSAP 2 [1, 203, 3])).map
      (fun s => (List.range 3).map (fun i => (s.getItem i).toOption)) =
      .ok [some 101, some 303, some 103] ∧
    ((Mover.uniformPass (fun p => p ≥ 200) (· + 100) (demoSAP 2 [1, 203, 3, 4])).bind
      (fun s => s.getItem 1)) = .ok 103 ∧
    (cppUniform (· + 100) (demoCSAP 2 [])).map (fun s => s.getNumberOfItems) = .error .type := by
  decide +kernel

end Dt
