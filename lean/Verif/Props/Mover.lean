import Verif.Lemmas.MoverReach
import Verif.Lemmas.PassLog
import Verif.Props.Storage

/-!
# Properties C09, C11 - C16: mover passes

`meshPass adv s st` is a pass of a mesh mover over a species; `adv` is what
happens to a single particle (arbitrary, possibly raising, with side state).
-/

namespace Dt
open SAP Spec Mover

variable {σ α : Type}

theorem nonempty_of_count {s : SAP α} (hr : Reachable s) (h : s.getNumberOfItems ≠ 0) :
    s.contents ≠ [] := by
  intro h0
  have := contents_length (reachable_inv hr)
  rw [h0] at this
  simp at this
  omega

/-- The concrete advance used in examples: add 100 to the particle, delete it
when it was odd. -/
def demoAdv : Adv Unit Nat := fun _ _ _ _ p => .ok ((), p + 100, p % 2 == 0)

/-! ## C09 -/

/-- **C09.** Attach an observer to the per-particle code of any pass.  The
j-th observation is made with "in" index j, it sees the particle that was
stored at position j before the pass, and if the particle is kept, then after
the pass position `iOut` holds its new record.  The flag `indexChange` says
whether the two indices differ. -/
theorem C09_indices_identify_particle (adv : Adv σ α) {s s' : SAP α} (hr : Reachable s)
    (hn : s.getNumberOfItems ≠ 0) {st st' : σ} {log : List (Entry α)}
    (e : meshPass (logged adv) s (st, []) = .ok (s', (st', log))) :
    (log.length : Int) = s.getNumberOfItems ∧
    ∀ (j : Nat) (hj : j < log.length),
      log[j].iIn = j ∧ s.getItem j = .ok log[j].before ∧
      log[j].indexChange = decide (log[j].iOut ≠ log[j].iIn) ∧
      (log[j].keep = true → s'.getItem log[j].iOut = .ok log[j].after) := by
  have hi := reachable_inv hr
  have hne := nonempty_of_count hr hn
  have h1 := meshPass_post (logged adv) hi hne (st, [])
  have h2 := pass_logged adv s.contents st [] 0 0
  cases hp : pass adv st 0 0 s.contents with
  | error e' =>
    rw [hp] at h2
    simp only [] at h2
    rw [h2] at h1
    simp only [] at h1
    rw [h1] at e; cases e
  | ok r =>
    obtain ⟨st1, ys⟩ := r
    rw [hp] at h2
    obtain ⟨log', k1, k2, k3, k4⟩ := h2
    rw [k1] at h1
    obtain ⟨s1, e1, post⟩ := h1
    rw [e] at e1
    simp only [Except.ok.injEq, Prod.mk.injEq, List.nil_append] at e1
    obtain ⟨rfl, rfl, rfl⟩ := e1
    refine ⟨by rw [k2]; exact contents_length hi, ?_⟩
    intro j hj
    obtain ⟨a1, a2, a3, a4⟩ := k4 j hj
    have hjc : j < s.contents.length := by omega
    refine ⟨by rw [a1]; simp, ?_, a3, ?_⟩
    · rw [getItem_ok hi hjc]
      rw [List.getElem?_eq_getElem hjc] at a4
      rw [Option.some.inj a4]
    · intro hk
      have hg := kept_get log j hj hk
      rw [k3] at hg
      have hlt : (kept (log.take j)).length < ys.length := by
        rw [List.getElem?_eq_some_iff] at hg
        exact hg.1
      have hys : ys ≠ [] := by intro h0; rw [h0] at hlt; simp at hlt
      obtain ⟨hi', hc'⟩ := post.inv hys
      rw [a2, Nat.zero_add]
      rw [getItem_ok hi' (by rw [hc']; exact hlt)]
      simp only [hc']
      rw [List.getElem?_eq_getElem hlt] at hg
      rw [Option.some.inj hg]

/-- Non-vacuity: five particles in segments of two, the odd ones deleted. -/
example : (meshPass (logged demoAdv) (demoSAP 2 [2, 3, 4, 5, 6]) ((), [])).map
      (fun r => r.2.2.map (fun en => (en.iIn, en.iOut, en.indexChange, en.before, en.keep))) =
    .ok [(0, 0, false, 2, true), (1, 1, false, 3, false), (2, 1, true, 4, true),
      (3, 2, true, 5, false), (4, 2, true, 6, true)] := by decide

/-! ## C11 -/

/-- **C11 (refinement).** A pass over a non-empty species does what the
specification `Spec.pass` does on the list of its particles: same exception,
or same side state, with the survivors stored in order. -/
theorem C11_pass_refines_list (adv : Adv σ α) {s : SAP α} (hr : Reachable s)
    (hn : s.getNumberOfItems ≠ 0) (xs : List α) (hx : (xs.length : Int) = s.getNumberOfItems)
    (hxs : ∀ (i : Nat) (hi : i < xs.length), s.getItem i = .ok xs[i]) (st : σ) :
    match Spec.pass adv st 0 0 xs with
    | .error e => meshPass adv s st = .error e
    | .ok (st', ys) => ∃ s', meshPass adv s st = .ok (s', st') ∧
        s'.getNumberOfItems = ys.length ∧
        (∀ (i : Nat) (hi : i < ys.length), s'.getItem i = .ok ys[i]) ∧
        (ys ≠ [] → Reachable s' ∧ ∃ t, s'.readLoop = .ok (t, chunk s.sl ys)) := by
  have hi := reachable_inv hr
  have hne := nonempty_of_count hr hn
  have hxc : xs = s.contents := by
    have hl := contents_length hi
    apply List.ext_getElem (by omega)
    intro i h1 h2
    have := hxs i h1
    rw [getItem_ok hi h2] at this
    exact (Except.ok.inj this).symm
  subst hxc
  have h1 := meshPass_post adv hi hne st
  cases hp : pass adv st 0 0 s.contents with
  | error e => rw [hp] at h1; exact h1
  | ok r =>
    obtain ⟨st', ys⟩ := r
    rw [hp] at h1
    obtain ⟨s', e, post⟩ := h1
    refine ⟨s', e, post.count, ?_, ?_⟩
    · intro i hlt
      have hys : ys ≠ [] := by intro h0; rw [h0] at hlt; simp at hlt
      obtain ⟨hi', hc'⟩ := post.inv hys
      rw [getItem_ok hi' (by rw [hc']; exact hlt)]
      simp only [hc']
    · intro hys
      obtain ⟨hi', hc'⟩ := post.inv hys
      refine ⟨meshPass_reach hr hne e ?_, ?_⟩
      · rw [post.count]
        have := List.length_pos_iff.2 hys
        omega
      · have := readLoop_ok hi'.out
        rw [hc', post.sl] at this
        exact ⟨_, this⟩

/-- **C11.** For an advance `f` that computes the new record and whether it is
kept: every particle is advanced exactly once, exactly the kept ones are
stored, in the original order. -/
theorem C11_survivors (f : α → α × Bool) {s : SAP α} (hr : Reachable s)
    (hn : s.getNumberOfItems ≠ 0) (xs : List α) (hx : (xs.length : Int) = s.getNumberOfItems)
    (hxs : ∀ (i : Nat) (hi : i < xs.length), s.getItem i = .ok xs[i]) :
    ∃ s', meshPass (fun (_ : Unit) _ _ _ p => .ok ((), f p)) s () = .ok (s', ()) ∧
      s'.getNumberOfItems = ((xs.map f).filter (·.2)).length ∧
      ∀ (i : Nat) (hi : i < ((xs.map f).filter (·.2)).length),
        s'.getItem i = .ok (((xs.map f).filter (·.2))[i].1) := by
  have key := C11_pass_refines_list (fun (_ : Unit) _ _ _ p => .ok ((), f p)) hr hn xs hx hxs ()
  rw [pass_pure] at key
  simp only [] at key
  obtain ⟨s', e, h1, h2, -⟩ := key
  have hfm : (xs.map f).filterMap (fun r => if r.2 then some r.1 else none) =
      ((xs.map f).filter (·.2)).map (·.1) := by
    generalize xs.map f = l
    induction l with
    | nil => rfl
    | cons a l ih =>
      cases h : a.2
      · simp [h, ih]
      · simp [h, ih]
  refine ⟨s', e, ?_, ?_⟩
  · rw [h1, hfm, List.length_map]
  · intro i hlt
    rw [h2 i (by rw [hfm, List.length_map]; exact hlt)]
    simp only [hfm, List.getElem_map]

/-- Non-vacuity: the hypotheses hold for a population of five in segments of two. -/
example : (demoSAP 2 [2, 3, 4, 5, 6]).getNumberOfItems = 5 ∧
    ((meshPass demoAdv (demoSAP 2 [2, 3, 4, 5, 6]) ()).bind
      (fun r => r.1.readLoop)).map (·.2) = .ok [[102, 104], [106]] := by decide

/-! ## C12 -/

/-- **C12 (in-array).** After a pass every slot of the "in" array reads exactly
as the same slot of the "out" array did before the pass. -/
theorem C12_in_array_preserved (adv : Adv σ α) {s s' : SAP α} (hr : Reachable s)
    (hn : s.getNumberOfItems ≠ 0) {st st' : σ} (e : meshPass adv s st = .ok (s', st'))
    (seg off : Int) :
    s'.viewGet ⟨s'.inSel, seg⟩ off = s.viewGet ⟨s.outSel, seg⟩ off := by
  have h1 := meshPass_post adv (reachable_inv hr) (nonempty_of_count hr hn) st
  cases hp : pass adv st 0 0 s.contents with
  | error _ => rw [hp] at h1; simp only [] at h1; rw [h1] at e; cases e
  | ok r =>
    rw [hp] at h1
    obtain ⟨s1, e1, post⟩ := h1
    rw [e] at e1
    simp only [Except.ok.injEq, Prod.mk.injEq] at e1
    obtain ⟨rfl, rfl⟩ := e1
    have := post.inSegs
    simp only [inA, outA] at this
    simp only [viewGet, load, this]

/-- **C12 (exceptions).** A pass raises `e` exactly if the per-particle code
raises `e` on some particle, when run after the particles before it; storage
handling itself never raises. -/
theorem C12_raises_iff_particle_raises (adv : Adv σ α) {s : SAP α} (hr : Reachable s)
    (hn : s.getNumberOfItems ≠ 0) (xs : List α) (hx : (xs.length : Int) = s.getNumberOfItems)
    (hxs : ∀ (i : Nat) (hi : i < xs.length), s.getItem i = .ok xs[i]) (st : σ) (e : Err) :
    meshPass adv s st = .error e ↔
      ∃ (j : Nat) (hj : j < xs.length) (st' : σ) (ys : List α),
        Spec.pass adv st 0 0 (xs.take j) = .ok (st', ys) ∧
        adv st' j ys.length (decide (ys.length ≠ j)) xs[j] = .error e := by
  have key := C11_pass_refines_list adv hr hn xs hx hxs st
  have h2 := pass_error_iff adv xs st 0 0 e
  simp only [Nat.zero_add] at h2
  rw [← h2]
  cases hp : pass adv st 0 0 xs with
  | error e' => rw [hp] at key; simp only [] at key; rw [key]; simp
  | ok r =>
    rw [hp] at key
    obtain ⟨s', h3, -⟩ := key
    rw [h3]
    simp

/-- Non-vacuity: an advance that raises on the particle 5 (and only there). -/
example : meshPass (fun _ _ _ _ p => if p = 5 then .error .runtime else .ok ((), p, true))
    (demoSAP 2 [2, 3, 4, 5, 6]) () = .error .runtime := by decide
example : (meshPass demoAdv (demoSAP 2 [2, 3, 4, 5, 6]) ()).bind
    (fun r => r.1.viewGet ⟨r.1.inSel, 1⟩ 1) = .ok 5 := by decide

/-! ## C14 -/

/-- **C14 (partial).** If every particle is deleted the species reports 0
particles, and the following mover steps leave it alone.  Missing: read loops
see no particle and particles can be added again -- both false, see
`C14_ghosts`. -/
theorem C14_count_zero_partial (adv : Adv σ α) {s : SAP α} (hr : Reachable s)
    (hn : s.getNumberOfItems ≠ 0) (xs : List α) (hx : (xs.length : Int) = s.getNumberOfItems)
    (hxs : ∀ (i : Nat) (hi : i < xs.length), s.getItem i = .ok xs[i]) {st st' : σ}
    (hdel : Spec.pass adv st 0 0 xs = .ok (st', [])) :
    ∃ s', meshPass adv s st = .ok (s', st') ∧ s'.getNumberOfItems = 0 ∧
      ∀ (advs : List (Adv σ α)), meshSteps advs s' st' = .ok (s', st') := by
  have key := C11_pass_refines_list adv hr hn xs hx hxs st
  rw [hdel] at key
  obtain ⟨s', e, h1, -⟩ := key
  have h1' : s'.getNumberOfItems = 0 := by simpa using h1
  refine ⟨s', e, h1', ?_⟩
  intro advs
  induction advs with
  | nil => rfl
  | cons a as ih =>
    simp only [meshSteps, meshStep, h1', if_true, bind, Except.bind]
    exact ih

/-- **C14 fails.** Whenever every particle is deleted, a read loop yields one
piece of `segment length` stale records, and adding a particle raises, before
as well as after that loop. -/
theorem C14_ghosts (adv : Adv σ α) {s : SAP α} (hr : Reachable s)
    (hn : s.getNumberOfItems ≠ 0) (xs : List α) (hx : (xs.length : Int) = s.getNumberOfItems)
    (hxs : ∀ (i : Nat) (hi : i < xs.length), s.getItem i = .ok xs[i]) {st st' : σ}
    (hdel : Spec.pass adv st 0 0 xs = .ok (st', [])) :
    ∃ s' t seg, meshPass adv s st = .ok (s', st') ∧
      s'.readLoop = .ok (t, [seg]) ∧ seg.length = s.sl ∧ 0 < s.sl ∧
      (∀ x, s'.pushBack x = .error .assertion) ∧ ∀ x, t.pushBack x = .error .assertion := by
  have hi := reachable_inv hr
  have hne := nonempty_of_count hr hn
  have hxc : xs = s.contents := by
    have hl := contents_length hi
    apply List.ext_getElem (by omega)
    intro i h1 h2
    have := hxs i h1
    rw [getItem_ok hi h2] at this
    exact (Except.ok.inj this).symm
  subst hxc
  have h1 := meshPass_post adv hi hne st
  rw [hdel] at h1
  obtain ⟨s', e, post⟩ := h1
  obtain ⟨p1, p2, p3, p4, p5, p6⟩ := post.empty rfl
  have hsl := post.sl
  have hrd := readLoop_ghost p1 p4
  have hlen : (s'.outA.segs[0]).length = s.sl := p5 _ (List.getElem_mem p4)
  refine ⟨s', _, _, e, hrd, by rw [List.length_take, hlen, hsl]; omega, hi.out.pos,
    fun x => ghost_pushBack p1 (by rw [p2, hsl]) p3 x, fun x => ?_⟩
  apply pushBack_err
  · simp [p2, hsl]
  · simp [Synced, p1]

/-- Witness: three odd particles are deleted; the loop then visits two. -/
theorem C14_false : ∃ s : SAP Nat, s = demoSAP 2 [1, 3, 5] ∧
    (meshPass demoAdv s ()).map (fun r => r.1.getNumberOfItems) = .ok 0 ∧
    ((meshPass demoAdv s ()).bind (fun r => r.1.readLoop)).map (·.2) = .ok [[105, 0]] ∧
    ((meshPass demoAdv s ()).bind (fun r => r.1.pushBack 7)).map (·.2) = .error .assertion :=
  ⟨_, rfl, by decide, by decide, by decide⟩

/-! ## C15 -/

/-- **C15 (exact).** After a pass with survivors, adding particles fails
exactly if the number of survivors is a multiple of the segment length and the
last particle of the pass was deleted.  Otherwise any number of particles can
be added, and they are stored after the survivors. -/
theorem C15_push_after_pass_exact (adv : Adv σ α) {s : SAP α} (hr : Reachable s)
    (hn : s.getNumberOfItems ≠ 0) (xs : List α) (hx : (xs.length : Int) = s.getNumberOfItems)
    (hxs : ∀ (i : Nat) (hi : i < xs.length), s.getItem i = .ok xs[i]) {st st' : σ} {ys : List α}
    (hp : Spec.pass adv st 0 0 xs = .ok (st', ys)) (hys : ys ≠ []) :
    ∃ s', meshPass adv s st = .ok (s', st') ∧
      if ys.length % s.sl = 0 ∧ lastFlag adv st 0 0 xs = some false then
        ∀ x, s'.pushBack x = .error .assertion
      else ∀ zs : List α, ∃ s'' rs, s'.pushAll zs = .ok (s'', rs) ∧ Reachable s'' ∧
        s''.getNumberOfItems = (ys ++ zs).length ∧
        ∀ (i : Nat) (hi : i < (ys ++ zs).length), s''.getItem i = .ok (ys ++ zs)[i] := by
  have hi := reachable_inv hr
  have hne := nonempty_of_count hr hn
  have hxc : xs = s.contents := by
    have hl := contents_length hi
    apply List.ext_getElem (by omega)
    intro i h1 h2
    have := hxs i h1
    rw [getItem_ok hi h2] at this
    exact (Except.ok.inj this).symm
  subst hxc
  have h1 := meshPass_post adv hi hne st
  rw [hp] at h1
  obtain ⟨s', e, post⟩ := h1
  obtain ⟨hi', hc'⟩ := post.inv hys
  refine ⟨s', e, ?_⟩
  split
  · rename_i hcond
    intro x
    apply pushBack_err
    · rw [(post.full hys).2 hcond.1, post.sl]
    · rw [post.sync hys]; exact fun h => h hcond
  · rename_i hcond
    intro zs
    have hs := (post.sync hys).2 hcond
    obtain ⟨s'', rs, e2, hi2, -, hc2, -⟩ := pushAll_ok hi' hs zs
    rw [hc'] at hc2
    have hr' : Reachable s' := meshPass_reach hr hne e (by
      rw [post.count]; have := List.length_pos_iff.2 hys; omega)
    refine ⟨s'', rs, e2, ?_, by rw [← contents_length hi2, hc2], ?_⟩
    · clear hc2 hi2 hs post e hi' hc' hcond
      revert hr'
      induction zs generalizing s' rs s'' with
      | nil =>
        intro hr'
        simp only [pushAll, Except.ok.injEq, Prod.mk.injEq] at e2
        rw [← e2.1]; exact hr'
      | cons z zs ih =>
        intro hr'
        simp only [pushAll] at e2
        cases hpb : s'.pushBack z with
        | error _ => rw [hpb] at e2; cases e2
        | ok r =>
          rw [hpb] at e2
          simp only [bind, Except.bind, pure, Except.pure] at e2
          cases hpa : r.1.pushAll zs with
          | error _ => rw [hpa] at e2; cases e2
          | ok q =>
            rw [hpa] at e2
            simp only [Except.ok.injEq, Prod.mk.injEq] at e2
            rw [← e2.1]
            exact ih r.1 q.1 q.2 hpa (hr'.push hpb)
    · intro i hlt
      rw [getItem_ok hi2 (by rw [hc2]; exact hlt)]
      simp only [hc2]

/-- **C15 (partial).** If the pass kept its last particle, any number of
particles can be added afterwards.  Missing: passes that end with a deletion and
whose survivors fill their segments exactly; there the claim is false. -/
theorem C15_push_after_pass_partial (f : α → α × Bool) {s : SAP α} (hr : Reachable s)
    (xs : List α) (x : α) (hx : ((xs ++ [x]).length : Int) = s.getNumberOfItems)
    (hxs : ∀ (i : Nat) (hi : i < (xs ++ [x]).length), s.getItem i = .ok (xs ++ [x])[i])
    (hk : (f x).2 = true) (zs : List α) :
    ∃ s' s'' rs, meshPass (fun (_ : Unit) _ _ _ p => .ok ((), f p)) s () = .ok (s', ()) ∧
      s'.pushAll zs = .ok (s'', rs) ∧
      s''.getNumberOfItems = s'.getNumberOfItems + zs.length := by
  have hlf : ∀ (xs : List α) (i o : Nat),
      lastFlag (fun (_ : Unit) _ _ _ p => .ok ((), f p)) () i o (xs ++ [x]) = some true := by
    intro xs
    induction xs with
    | nil => intro i o; simp [lastFlag, hk]
    | cons y ys ih => intro i o; simp only [List.cons_append, lastFlag]; rw [ih]
  have hpure := pass_pure f (xs ++ [x]) 0 0
  have hys : ((xs ++ [x]).map f).filterMap (fun r => if r.2 then some r.1 else none) ≠ [] := by
    simp [hk]
  have hn : s.getNumberOfItems ≠ 0 := by
    rw [← hx]; simp; omega
  obtain ⟨s', e, h1⟩ := C15_push_after_pass_exact _ hr hn (xs ++ [x]) hx hxs hpure hys
  rw [if_neg (by rw [hlf]; simp)] at h1
  obtain ⟨s'', rs, h2, -, h3, -⟩ := h1 zs
  refine ⟨s', s'', rs, e, h2, ?_⟩
  have key := C11_pass_refines_list (fun (_ : Unit) _ _ _ p => .ok ((), f p)) hr hn _ hx hxs ()
  rw [hpure] at key
  obtain ⟨s1, e1, h4, -⟩ := key
  rw [e] at e1
  simp only [Except.ok.injEq, Prod.mk.injEq] at e1
  obtain ⟨rfl, -⟩ := e1
  rw [h3, h4, List.length_append]
  push_cast; rfl

/-- **C15 fails** when the survivors fill their segments and the last particle
is deleted: 2 and 4 survive in one segment of two, 5 is deleted. -/
theorem C15_false : ∃ s : SAP Nat, s = demoSAP 2 [2, 4, 5] ∧
    (meshPass demoAdv s ()).map (fun r => r.1.getNumberOfItems) = .ok 2 ∧
    ((meshPass demoAdv s ()).bind (fun r => r.1.pushBack 7)).map (·.2) = .error .assertion :=
  ⟨_, rfl, by decide, by decide⟩

/-- Non-vacuity of the successful case. -/
example : ((meshPass demoAdv (demoSAP 2 [2, 5, 4]) ()).bind
    (fun r => r.1.pushBack 7)).map (·.2) = .ok (0, 2) := by decide

/-! ## C16 -/

/-- **C16.** Any number of consecutive steps of a species does what iterating
the list specification does: same exception, or same side state and the stored
particles are the successive survivors in order. -/
theorem C16_steps_compose (advs : List (Adv σ α)) {s : SAP α} (hr : Reachable s) (xs : List α)
    (hx : (xs.length : Int) = s.getNumberOfItems)
    (hxs : ∀ (i : Nat) (hi : i < xs.length), s.getItem i = .ok xs[i]) (st : σ) :
    match Spec.steps advs st xs with
    | .error e => meshSteps advs s st = .error e
    | .ok (st', ys) => ∃ s', meshSteps advs s st = .ok (s', st') ∧
        s'.getNumberOfItems = ys.length ∧
        (∀ (i : Nat) (hi : i < ys.length), s'.getItem i = .ok ys[i]) ∧
        (ys ≠ [] → Reachable s') := by
  have empty : ∀ (advs : List (Adv σ α)) (s : SAP α) (st : σ), s.getNumberOfItems = 0 →
      Spec.steps advs st ([] : List α) = .ok (st, []) ∧ meshSteps advs s st = .ok (s, st) := by
    intro advs
    induction advs with
    | nil => intros; exact ⟨rfl, rfl⟩
    | cons a as ih =>
      intro s st h0
      simp only [Spec.steps, Spec.pass, meshSteps, meshStep, h0, if_true, bind, Except.bind]
      exact ih s st h0
  induction advs generalizing s st xs with
  | nil => exact ⟨s, rfl, by omega, hxs, fun _ => hr⟩
  | cons adv advs ih =>
    by_cases h0 : s.getNumberOfItems = 0
    · have : xs = [] := by
        rw [← List.length_eq_zero_iff]; omega
      subst this
      obtain ⟨k1, k2⟩ := empty (adv :: advs) s st h0
      rw [k1]
      exact ⟨s, k2, by simpa using h0, by simp, by simp⟩
    · have key := C11_pass_refines_list adv hr h0 xs hx hxs st
      simp only [Spec.steps, meshSteps, meshStep, if_neg h0]
      cases hp : pass adv st 0 0 xs with
      | error e =>
        rw [hp] at key
        simp only [] at key ⊢
        rw [key]; rfl
      | ok r =>
        obtain ⟨st1, ys⟩ := r
        rw [hp] at key
        simp only [] at key ⊢
        obtain ⟨s1, e, h1, h2, h3⟩ := key
        rw [e]
        simp only [bind, Except.bind]
        by_cases hys : ys = []
        · subst hys
          have h1' : s1.getNumberOfItems = 0 := by simpa using h1
          obtain ⟨k1, k2⟩ := empty advs s1 st1 h1'
          rw [k1]
          exact ⟨s1, k2, by simpa using h1', by simp, by simp⟩
        · exact ih (h3 hys).1 ys (by omega) h2 st1

/-- Non-vacuity: three steps. -/
example : ((meshSteps [demoAdv, fun _ _ _ _ p => .ok ((), p / 2 + 1, p ≠ 104), demoAdv]
      (demoSAP 2 [2, 3, 4, 5, 6]) ()).bind (fun r => r.1.readLoop)).map (·.2) =
    .ok [[152, 154]] := by decide

/-! ## C13 -/

/-- **C13 (exact).** The uniform-field mover stores the images of the
particles that are not flagged, in order; the count it declares is too large by
one segment length exactly when the number of survivors is a positive
multiple of the segment length. -/
theorem C13_uniform_count_exact (dead : α → Bool) (f : α → α) {s : SAP α} (hr : Reachable s)
    (hn : s.getNumberOfItems ≠ 0) (xs : List α) (hx : (xs.length : Int) = s.getNumberOfItems)
    (hxs : ∀ (i : Nat) (hi : i < xs.length), s.getItem i = .ok xs[i])
    (ys : List α) (hys : ys = (xs.filter (fun p => !dead p)).map f) :
    ∃ s', uniformPass dead f s = .ok s' ∧
      s'.getNumberOfItems =
        (if ys ≠ [] ∧ ys.length % s.sl = 0 then ys.length + s.sl else ys.length : Nat) ∧
      ∀ (i : Nat) (hi : i < ys.length), s'.getItem i = .ok ys[i] := by
  have hi := reachable_inv hr
  have hne := nonempty_of_count hr hn
  have hxc : xs = s.contents := by
    have hl := contents_length hi
    apply List.ext_getElem (by omega)
    intro i h1 h2
    have := hxs i h1
    rw [getItem_ok hi h2] at this
    exact (Except.ok.inj this).symm
  subst hxc
  obtain ⟨t, q, e, hti, hsl, -, -, -, -, -, hcap, htake⟩ := uniformPass_ok dead f hi hne
  rw [← hys] at e hcap htake
  refine ⟨_, e, ?_, ?_⟩
  · rw [count_setNumber]
    split <;> rfl
  · intro i hlt
    obtain ⟨-, -, -, g4, g5, -, -⟩ := setNumber_in hti
      ((ys.length + (if ys ≠ [] ∧ ys.length % s.sl = 0 then s.sl else 0) : Nat) : Int)
    rw [getItem_eq (by rw [g4, g5]; exact hti.out.uni) (by rw [g4]; exact hti.out.pos), g5]
    have : t.outA.segs.flatten[i]? = some ys[i] := by
      rw [← List.getElem?_eq_getElem hlt, ← htake, List.getElem?_take, if_pos]
      exact hlt
    rw [this]; rfl

/-- **C13 (partial).** If the number of survivors is not a multiple of the
segment length, the count is right and a read loop yields exactly the images of
the survivors in order.  Missing: multiples of the segment length. -/
theorem C13_uniform_partial (dead : α → Bool) (f : α → α) {s : SAP α} (hr : Reachable s)
    (hn : s.getNumberOfItems ≠ 0) (xs : List α) (hx : (xs.length : Int) = s.getNumberOfItems)
    (hxs : ∀ (i : Nat) (hi : i < xs.length), s.getItem i = .ok xs[i])
    (ys : List α) (hys : ys = (xs.filter (fun p => !dead p)).map f)
    (hm : ys.length % s.sl ≠ 0) :
    ∃ s' t, uniformPass dead f s = .ok s' ∧ s'.getNumberOfItems = ys.length ∧
      s'.readLoop = .ok (t, chunk s.sl ys) := by
  have hi := reachable_inv hr
  have hne := nonempty_of_count hr hn
  have hxc : xs = s.contents := by
    have hl := contents_length hi
    apply List.ext_getElem (by omega)
    intro i h1 h2
    have := hxs i h1
    rw [getItem_ok hi h2] at this
    exact (Except.ok.inj this).symm
  subst hxc
  obtain ⟨t, q, e, hti, hsl, -, -, -, -, -, hcap, htake⟩ := uniformPass_ok dead f hi hne
  rw [← hys] at e hcap htake
  rw [if_neg (fun h => hm h.2), Nat.add_zero] at e
  have hpos : 1 ≤ ys.length := by
    rcases Nat.eq_zero_or_pos ys.length with h | h
    · rw [h] at hm; simp at hm
    · exact h
  obtain ⟨h1, h2, h3, -⟩ := setNumberOfItems_ok hti ys.length hpos (by rw [hsl]; exact hcap)
  obtain ⟨-, -, -, g4, -⟩ := setNumber_in hti (ys.length : Int)
  have hrd := readLoop_ok h1.out
  rw [h2, htake, g4, hsl] at hrd
  exact ⟨_, _, e, h3, hrd⟩

/-- **C13 fails**: two particles, segments of two, no deletion.  The count
becomes 4.  A subsequent read loop raises IndexError on a fresh species, and
on a species that once was larger it visits two stale records. -/
theorem C13_false :
    ((uniformPass (fun _ => false) (· + 100) (demoSAP 2 [1, 2])).map
      (fun s => s.getNumberOfItems) = .ok 4) ∧
    (((uniformPass (fun _ => false) (· + 100) (demoSAP 2 [1, 2])).bind
      (fun s => s.readLoop)).map (·.2) = .error .index) ∧
    ((uniformPass (fun p => p ≥ 203) (· + 100) (demoSAP 2 [1, 2, 103, 104, 105])).bind
      (fun s => (uniformPass (fun p => p ≥ 203) (· + 100) s).bind
        (fun s => s.readLoop.map (·.2))) = .ok [[201, 202], [103, 104]]) := by
  decide

/-- Non-vacuity of the partial theorem. -/
example : ((uniformPass (fun p => p % 2 == 1) (· + 100) (demoSAP 2 [2, 3, 4, 5, 6])).bind
    (fun s => s.readLoop)).map (·.2) = .ok [[102, 104], [106]] := by decide

end Dt
