import Verif.Lemmas.TrajPass
import Verif.Model.Recorded
import Verif.Props.Mover

/-!
# Properties C17 - C21: trajectories
-/

namespace Dt
open SAP Spec Mover TrajSp

variable {δ α T τ U : Type} [Add T] [DecidableEq U]

/-! ## C17 -/

theorem places_zero {owner : List U} {idx : List Int} {us : List U} :
    Places owner idx [] us 0 ↔ idx = owner.map (posOf us) := by
  unfold Places
  have : place ([] : List U) us 0 = posOf us := by
    funext u
    unfold place posOf
    simp
  rw [this]

theorem places_done {owner : List U} {idx : List Int} {us : List U} {i : Nat} :
    Places owner idx us [] i ↔ idx = owner.map (posOf us) := by
  unfold Places
  have : place us [] i = posOf us := by
    funext u
    unfold place posOf
    simp
  rw [this]

/-- A population with distinct identities, in which exactly the particles listed
in `owner` carry the trajectory flag, and whose trajectory index list is
right. -/
structure Tracked (isTraj : α → Bool) (uid : α → U) (owner : List U) (t : TrajSp δ)
    (xs : List α) : Prop where
  ids : (xs.map uid).Nodup
  flags : ∀ p ∈ xs, isTraj p = true ↔ uid p ∈ owner
  follows : Follows uid owner t xs

/-- **C17 (one pass).** The pass of a mesh mover with trajectory bookkeeping
(`cadv`) over a tracked population raises exactly when the pure motion does
(so no trajectory lookup raises), leaves the same particles in the same order, and
afterwards the index list is right again: surviving particles have their new
position, deleted ones NO_PINDEX.  Recorded points only grow. -/
theorem C17_pass_follows (c : Cfg δ α T) (uid : α → U)
    (core : τ → α → Except Err (τ × α × List (α × T))) (hk : Keeps c uid core)
    {owner : List U} (hnd : owner.Nodup) {s : SAP α} (hr : Reachable s)
    (hn : s.getNumberOfItems ≠ 0) (xs : List α) (hx : (xs.length : Int) = s.getNumberOfItems)
    (hxs : ∀ (i : Nat) (hi : i < xs.length), s.getItem i = .ok xs[i]) (τ0 : τ)
    {t : TrajSp δ} (ht : TrajSp.Reach c.np t) (htr : Tracked c.isTraj uid owner t xs) :
    match Spec.pass (coreAdv c core) τ0 0 0 xs with
    | .error e => meshPass (cadv c core) s (τ0, t) = .error e
    | .ok (τ', ys) => ∃ s' t', meshPass (cadv c core) s (τ0, t) = .ok (s', (τ', t')) ∧
        s'.getNumberOfItems = ys.length ∧
        (∀ (i : Nat) (hi : i < ys.length), s'.getItem i = .ok ys[i]) ∧
        Tracked c.isTraj uid owner t' ys ∧
        ∀ j, points t j <+: points t' j := by
  have key := C11_pass_refines_list (cadv c core) hr hn xs hx hxs (τ0, t)
  have key2 := pass_follow c uid core hk hnd xs [] 0 τ0 t (reach_wf ht) (Nat.le_refl _)
    (by simpa using htr.ids) htr.flags (places_zero.2 htr.follows)
  simp only [List.length_nil, List.nil_append] at key2
  cases hp : pass (coreAdv c core) τ0 0 0 xs with
  | error e =>
    rw [hp] at key2
    simp only [] at key2 ⊢
    rw [key2] at key
    exact key
  | ok r =>
    obtain ⟨τ', ys⟩ := r
    rw [hp] at key2
    simp only [] at key2 ⊢
    obtain ⟨t', e, -, h2, h3, h4, h5⟩ := key2
    rw [e] at key
    simp only [] at key
    obtain ⟨s', e', k1, k2, -⟩ := key
    exact ⟨s', t', e', k1, k2, ⟨h3, h4, places_done.1 h2⟩, h5⟩

/-- A step: the settings of the trajectory code and the motion. -/
abbrev StepOf (δ α T τ : Type) := Cfg δ α T × (τ → α → Except Err (τ × α × List (α × T)))

/-- **C17.** The same over any number of consecutive time steps of a species
(empty species are skipped), each with its own step number, time and motion. -/
theorem C17_steps_follow (np : Nat) (isTraj : α → Bool) (uid : α → U) {owner : List U}
    (hnd : owner.Nodup) (cs : List (StepOf δ α T τ))
    (hcs : ∀ c ∈ cs, c.1.np = np ∧ c.1.isTraj = isTraj ∧ Keeps c.1 uid c.2)
    {s : SAP α} (hr : Reachable s) (xs : List α) (hx : (xs.length : Int) = s.getNumberOfItems)
    (hxs : ∀ (i : Nat) (hi : i < xs.length), s.getItem i = .ok xs[i]) (τ0 : τ)
    {t : TrajSp δ} (ht : TrajSp.Reach np t) (htr : Tracked isTraj uid owner t xs) :
    match Spec.steps (cs.map (fun c => coreAdv c.1 c.2)) τ0 xs with
    | .error e => meshSteps (cs.map (fun c => cadv c.1 c.2)) s (τ0, t) = .error e
    | .ok (τ', ys) => ∃ s' t',
        meshSteps (cs.map (fun c => cadv c.1 c.2)) s (τ0, t) = .ok (s', (τ', t')) ∧
        s'.getNumberOfItems = ys.length ∧
        (∀ (i : Nat) (hi : i < ys.length), s'.getItem i = .ok ys[i]) ∧
        Tracked isTraj uid owner t' ys ∧
        ∀ j, points t j <+: points t' j := by
  have key := C16_steps_compose (cs.map (fun c => cadv c.1 c.2)) hr xs hx hxs (τ0, t)
  have spec : ∀ (cs : List (StepOf δ α T τ)),
      (∀ c ∈ cs, c.1.np = np ∧ c.1.isTraj = isTraj ∧ Keeps c.1 uid c.2) →
      ∀ (xs : List α) (τ0 : τ) (t : TrajSp δ), WF np t → Tracked isTraj uid owner t xs →
      match Spec.steps (cs.map (fun c => coreAdv c.1 c.2)) τ0 xs with
      | .error e => Spec.steps (cs.map (fun c => cadv c.1 c.2)) (τ0, t) xs = .error e
      | .ok (τ', ys) => ∃ t',
          Spec.steps (cs.map (fun c => cadv c.1 c.2)) (τ0, t) xs = .ok ((τ', t'), ys) ∧
          Tracked isTraj uid owner t' ys ∧ ∀ j, points t j <+: points t' j := by
    intro cs
    induction cs with
    | nil =>
      intro _ xs τ0 t _ htr
      exact ⟨t, rfl, htr, fun _ => List.prefix_refl _⟩
    | cons c cs ih =>
      intro hcs xs τ0 t hwf htr
      obtain ⟨h1, h2, h3⟩ := hcs c (by simp)
      have key2 := pass_follow c.1 uid c.2 h3 hnd xs [] 0 τ0 t (by rw [h1]; exact hwf)
        (Nat.le_refl _) (by simpa using htr.ids) (by rw [h2]; exact htr.flags)
        (places_zero.2 htr.follows)
      simp only [List.length_nil, List.nil_append] at key2
      simp only [List.map_cons, Spec.steps]
      cases hp : pass (coreAdv c.1 c.2) τ0 0 0 xs with
      | error e =>
        rw [hp] at key2
        simp only [] at key2 ⊢
        rw [key2]
      | ok r =>
        obtain ⟨τ', ys⟩ := r
        rw [hp] at key2
        simp only [] at key2 ⊢
        obtain ⟨t', e, w, k2, k3, k4, k5⟩ := key2
        rw [e]
        simp only []
        have := ih (fun c hc => hcs c (by simp [hc])) ys τ' t' (by rw [← h1]; exact w)
          ⟨k3, by rw [← h2]; exact k4, places_done.1 k2⟩
        cases hq : steps (cs.map (fun c => coreAdv c.1 c.2)) τ' ys with
        | error e => rw [hq] at this; exact this
        | ok r =>
          rw [hq] at this
          obtain ⟨t'', a, b, d⟩ := this
          exact ⟨t'', a, b, fun j => (k5 j).trans (d j)⟩
  have sp := spec cs hcs xs τ0 t (reach_wf ht) htr
  cases hq : steps (cs.map (fun c => coreAdv c.1 c.2)) τ0 xs with
  | error e =>
    rw [hq] at sp
    simp only [] at sp ⊢
    rw [sp] at key
    exact key
  | ok r =>
    obtain ⟨τ', ys⟩ := r
    rw [hq] at sp
    simp only [] at sp ⊢
    obtain ⟨t', a, b, d⟩ := sp
    rw [a] at key
    obtain ⟨s', e', k1, k2, -⟩ := key
    exact ⟨s', t', e', k1, k2, b, d⟩

/-- **C17 (creation).** Appending a particle with a new identity and, if it
carries the flag, creating a trajectory for the index `push_back` returns, keeps
the population tracked. -/
theorem C17_create_follows (np : Nat) (junk : δ) (isTraj : α → Bool) (uid : α → U) {owner : List U}
    {s s' : SAP α} (hr : Reachable s) (xs : List α) (hx : (xs.length : Int) = s.getNumberOfItems)
    {x : α} {off full : Int} (e : s.pushBack x = .ok (s', (off, full)))
    {t : TrajSp δ} (htr : Tracked isTraj uid owner t xs)
    (hnew : uid x ∉ xs.map uid) (hnew' : uid x ∉ owner) :
    Tracked isTraj uid (if isTraj x then owner ++ [uid x] else owner)
      (if isTraj x then TrajSp.create np junk t full else t) (xs ++ [x]) := by
  have hfull : full = xs.length := by
    rw [(C02_push_index_stable hr e).1, hx]
  have hpos : ∀ u ∈ owner, posOf ((xs ++ [x]).map uid) u = posOf (xs.map uid) u := by
    intro u hu
    unfold posOf
    have hux : u ≠ uid x := fun h => hnew' (h ▸ hu)
    simp only [List.map_append, List.map_cons, List.map_nil]
    by_cases h : u ∈ xs.map uid
    · rw [if_pos (by simp only [List.mem_append]; exact .inl h), if_pos h, List.idxOf_append, if_pos h]
    · rw [if_neg (by simp only [List.mem_append, List.mem_singleton]; rintro (h' | h')
                     · exact h h'
                     · exact hux h'), if_neg h]
  refine ⟨?_, ?_, ?_⟩
  · rw [List.map_append, List.nodup_append]
    refine ⟨htr.ids, by simp, ?_⟩
    intro a ha b hb hab
    simp only [List.map_cons, List.map_nil, List.mem_singleton] at hb
    subst hab; subst hb
    exact hnew ha
  · intro p hp
    simp only [List.mem_append, List.mem_singleton] at hp
    rcases hp with hp | rfl
    · have hpx : uid p ≠ uid x := fun h => hnew (h ▸ List.mem_map.2 ⟨p, hp, rfl⟩)
      rw [htr.flags p hp]
      split
      · simp [hpx]
      · rfl
    · cases hf : isTraj p with
      | true => simp
      | false => simp [hnew']
  · unfold Follows
    have hbase : owner.map (posOf ((xs ++ [x]).map uid)) = owner.map (posOf (xs.map uid)) :=
      List.map_congr_left hpos
    cases isTraj x with
    | false =>
      simp only [Bool.false_eq_true, if_false]
      rw [hbase]
      exact htr.follows
    | true =>
      simp only [if_true, TrajSp.create, List.map_append (f := posOf _), hbase]
      rw [htr.follows]
      congr 1
      simp only [List.map_cons, List.map_nil, List.cons.injEq, and_true]
      unfold posOf
      rw [if_pos (by simp), List.map_append, List.idxOf_append, if_neg hnew, hfull]
      simp

/-- Non-vacuity: particles are (identity, flagged); 11, 13 and 15 have
trajectories (created in another order); 13 and the unflagged 10 are deleted. -/
def demoCfg : Cfg (Int × Nat) (Nat × Bool) Nat :=
  ⟨3, none, 4, 40, 10, (·.2), fun p => p.1 == 13 || p.1 == 10, fun s t p => (s, t + p.1),
    fun s t p => (s, t + p.1)⟩

def demoCore : Unit → Nat × Bool → Except Err (Unit × (Nat × Bool) × List ((Nat × Bool) × Nat)) :=
  fun _ p => .ok ((), p, if p.1 == 15 then [(p, 35)] else [])

example : Keeps demoCfg Prod.fst demoCore := by
  intro τ0 p τ1 p' evs h
  simp only [demoCore, Except.ok.injEq, Prod.mk.injEq] at h
  obtain ⟨-, rfl, rfl⟩ := h
  refine ⟨rfl, rfl, ?_⟩
  intro ev hev
  split at hev
  · simp only [List.mem_singleton] at hev; subst hev; rfl
  · cases hev

example : Tracked (fun p : Nat × Bool => p.2) Prod.fst [15, 11, 13]
    (⟨[4, 1, 3], [0, 0, 0], [[(0, 0), (0, 0), (0, 0)], [(0, 0), (0, 0), (0, 0)],
      [(0, 0), (0, 0), (0, 0)]]⟩ : TrajSp (Int × Nat))
    [(10, false), (11, true), (12, false), (13, true), (15, true)] := by
  refine ⟨by decide, by decide, by unfold Follows; decide⟩

example : (meshPass (cadv demoCfg demoCore)
      (demoSAP 2 [(10, false), (11, true), (12, false), (13, true), (15, true)])
      ((), ⟨[4, 1, 3], [0, 0, 0], [[(0, 0), (0, 0), (0, 0)], [(0, 0), (0, 0), (0, 0)],
        [(0, 0), (0, 0), (0, 0)]]⟩)).map (fun r => (r.2.2.idx, r.2.2.len, points r.2.2 2)) =
    .ok ([2, 0, -1], [1, 0, 1], [(4, 53)]) := by decide

/-! ## C18 -/

/-- **C18.** Whatever is called on a reachable trajectory store, in any order and
any number of times: the recorded points of every trajectory remain (a prefix),
no trajectory gets longer than `npoints`, none disappears, and the length kept by
the code is the number of recorded points. -/
theorem C18_append_only {np : Nat} {t t' : TrajSp δ} (ht : TrajSp.Reach np t) (h : Run np t t')
    (j : Nat) :
    points t j <+: points t' j ∧ (points t' j).length ≤ np ∧
      t.idx.length ≤ t'.idx.length ∧
      (j < t'.idx.length → t'.len[j]? = some (points t' j).length) := by
  obtain ⟨w, h1, h2⟩ := run_wf h (reach_wf ht)
  refine ⟨h1 j, ?_, h2, fun hj => len_get w hj⟩
  unfold points
  split
  · rename_i row l hd hl
    rw [List.length_take]
    have := w.row j row hd
    omega
  · simp

/-- **C18 (single record).** `record_trajectory_datum` for a particle that has a
trajectory appends exactly one point to the first trajectory with that index if
there is room, and otherwise changes no recorded point; without a trajectory it
raises ValueError. -/
theorem C18_record_datum {np : Nat} {t : TrajSp δ} (ht : TrajSp.Reach np t) (full : Int) (d : δ) :
    (full ∉ t.idx → recordDatum np t full d = .error .value) ∧
    (full ∈ t.idx → ∃ (t' : TrajSp δ) (j : Nat), recordDatum np t full d = .ok t' ∧
      t.idx[j]? = some full ∧ (∀ k < j, t.idx[k]? ≠ some full) ∧ t'.idx = t.idx ∧
      points t' j = (if (points t j).length < np then points t j ++ [d] else points t j) ∧
      ∀ k, k ≠ j → points t' k = points t k) := by
  refine ⟨fun h => recordDatum_err h d, fun h => ?_⟩
  obtain ⟨j, hj⟩ := indexOf_mem h
  obtain ⟨t', e, -, h2, h3⟩ := recordDatum_ok (reach_wf ht) hj d
  obtain ⟨k1, -, k3⟩ := indexOf_ok hj
  refine ⟨t', j, e, k1, k3, h2, ?_, ?_⟩
  · rw [h3 j, if_pos rfl]; rfl
  · intro k hk
    rw [h3 k, if_neg hk]

/-- Non-vacuity: two trajectories with room for two points, three records. -/
example : (do
      let t := TrajSp.create 2 (0 : Nat) (TrajSp.create 2 0 TrajSp.empty 5) 7
      let t ← recordDatum 2 t 7 10
      let t ← recordDatum 2 t 7 11
      let t ← recordDatum 2 t 7 12
      return (points t 0, points t 1)) = Except.ok (ε := Err) ([], [10, 11]) := by decide

/-! ## C19 -/

/-- Every live trajectory of `t` refers to a stored particle and has room. -/
def Room (np : Nat) (s : SAP α) (t : TrajSp δ) : Prop :=
  ∀ (j : Nat) (ip : Int), t.idx[j]? = some ip → ip ≠ -1 →
    (points t j).length < np ∧ ∃ p, s.getItem ip = .ok p

/-- Exactly one point has been added to every live trajectory: that of the particle
stored at its index. -/
def RecordedOnce (s : SAP α) (mk : α → δ) (t t' : TrajSp δ) : Prop :=
  t'.idx = t.idx ∧
  ∀ (j : Nat) (ip : Int), t.idx[j]? = some ip →
    (ip = -1 → points t' j = points t j) ∧
    (ip ≠ -1 → ∃ p, s.getItem ip = .ok p ∧ points t' j = points t j ++ [mk p])

omit [Add T] [DecidableEq U] in
theorem recordedOnce_of {np : Nat} {s : SAP α} {mk : α → δ} {t t' : TrajSp δ}
    (hroom : Room np s t) (h : Traj.AllOnce np s mk 0 t t') : RecordedOnce s mk t t' := by
  obtain ⟨-, h2, h3⟩ := h
  refine ⟨h2, ?_⟩
  intro j ip hj
  have := h3 j
  rw [hj] at this
  simp only [Nat.zero_le, true_and] at this
  constructor
  · intro h0
    rw [this, if_neg (by simp [h0])]
  · intro h0
    obtain ⟨-, p, hp⟩ := hroom j ip hj h0
    rw [if_pos h0, hp] at this
    exact ⟨p, hp, this⟩

/-- **C19 (partial).** If every live trajectory of every species has room for one
more point, then recording a new step succeeds, adds exactly one point to every live
trajectory of every species, remembers the step, and a second call for the same
step changes nothing.  Missing: full buffers, where this is false
(`C19_false_charged`, `C19_false_neutral`). -/
theorem C19_record_all_once_partial (tr : Traj δ) (saC saN : List (SAP α)) (step : Int)
    (mkC mkN : α → δ) (hlast : tr.lastStep ≠ some step)
    (hlC : saC.length = tr.charged.length) (hlN : saN.length = tr.neutral.length)
    (hC : ∀ (k : Nat) (t : TrajSp δ) (s : SAP α), tr.charged[k]? = some t → saC[k]? = some s →
      TrajSp.Reach tr.npoints t ∧ Room tr.npoints s t)
    (hN : ∀ (k : Nat) (t : TrajSp δ) (s : SAP α), tr.neutral[k]? = some t → saN[k]? = some s →
      TrajSp.Reach tr.npoints t ∧ Room tr.npoints s t) :
    ∃ tr', tr.recordData saC saN step mkC mkN = .ok tr' ∧
      tr'.npoints = tr.npoints ∧ tr'.lastStep = some step ∧
      tr'.charged.length = tr.charged.length ∧ tr'.neutral.length = tr.neutral.length ∧
      (∀ (k : Nat) (t t' : TrajSp δ) (s : SAP α), tr.charged[k]? = some t →
        tr'.charged[k]? = some t' → saC[k]? = some s → RecordedOnce s mkC t t') ∧
      (∀ (k : Nat) (t t' : TrajSp δ) (s : SAP α), tr.neutral[k]? = some t →
        tr'.neutral[k]? = some t' → saN[k]? = some s → RecordedOnce s mkN t t') ∧
      tr'.recordData saC saN step mkC mkN = .ok tr' := by
  have hch : ∀ (np : Nat) (ts : List (TrajSp δ)) (ss : List (SAP α)), ss.length = ts.length →
      (∀ (k : Nat) (t : TrajSp δ) (s : SAP α), ts[k]? = some t → ss[k]? = some s →
        TrajSp.Reach np t ∧ Room np s t) →
      ∃ ts', Traj.chargedSpecies np mkC ts ss = .ok (ts', false) ∧ ts'.length = ts.length ∧
        ∀ (k : Nat) (t t' : TrajSp δ) (s : SAP α), ts[k]? = some t →
          ts'[k]? = some t' → ss[k]? = some s → RecordedOnce s mkC t t' := by
    intro np ts
    induction ts with
    | nil => intro ss _ _; exact ⟨[], by simp [Traj.chargedSpecies], rfl, by simp⟩
    | cons t ts ih =>
      intro ss hl hall
      cases ss with
      | nil => cases hl
      | cons s ss =>
        obtain ⟨hwf, hroom⟩ := hall 0 t s rfl rfl
        obtain ⟨t', e, h1⟩ := Traj.chargedLoop_ok (mk := mkC) t.idx.length (i := 0)
          (reach_wf hwf) (by simp) (fun j ip _ => hroom j ip)
        obtain ⟨ts', e2, h2, h3⟩ := ih ss (by simpa using hl)
          (fun k t s hk hs => hall (k + 1) t s hk hs)
        refine ⟨t' :: ts', ?_, by simp [h2], ?_⟩
        · unfold Traj.chargedSpecies
          simp [bind, Except.bind, e, e2, pure, Except.pure]
        · intro k u u' v hk hk' hs
          cases k with
          | zero =>
            simp only [List.getElem?_cons_zero, Option.some.injEq] at hk hk' hs
            subst hk; subst hk'; subst hs
            exact recordedOnce_of hroom h1
          | succ k => exact h3 k u u' v hk hk' hs
  have hne : ∀ (np : Nat) (ts : List (TrajSp δ)) (ss : List (SAP α)), ss.length = ts.length →
      (∀ (k : Nat) (t : TrajSp δ) (s : SAP α), ts[k]? = some t → ss[k]? = some s →
        TrajSp.Reach np t ∧ Room np s t) →
      ∃ ts', Traj.neutralSpecies mkN ts ss = .ok ts' ∧ ts'.length = ts.length ∧
        ∀ (k : Nat) (t t' : TrajSp δ) (s : SAP α), ts[k]? = some t →
          ts'[k]? = some t' → ss[k]? = some s → RecordedOnce s mkN t t' := by
    intro np ts
    induction ts with
    | nil => intro ss _ _; exact ⟨[], by simp [Traj.neutralSpecies], rfl, by simp⟩
    | cons t ts ih =>
      intro ss hl hall
      cases ss with
      | nil => cases hl
      | cons s ss =>
        obtain ⟨hwf, hroom⟩ := hall 0 t s rfl rfl
        obtain ⟨t', e, h1⟩ := Traj.neutralLoop_ok (mk := mkN) t.idx.length (i := 0)
          (reach_wf hwf) (by simp) (fun j ip _ => hroom j ip)
        obtain ⟨t2, e2', h1'⟩ := Traj.chargedLoop_ok (mk := mkN) t.idx.length (i := 0)
          (reach_wf hwf) (by simp) (fun j ip _ => hroom j ip)
        rw [h1] at e2'
        simp only [Except.ok.injEq, Prod.mk.injEq, and_true] at e2'
        subst e2'
        obtain ⟨ts', e2, h2, h3⟩ := ih ss (by simpa using hl)
          (fun k t s hk hs => hall (k + 1) t s hk hs)
        refine ⟨t' :: ts', ?_, by simp [h2], ?_⟩
        · unfold Traj.neutralSpecies
          simp [bind, Except.bind, e, e2, pure, Except.pure]
        · intro k u u' v hk hk' hs
          cases k with
          | zero =>
            simp only [List.getElem?_cons_zero, Option.some.injEq] at hk hk' hs
            subst hk; subst hk'; subst hs
            exact recordedOnce_of hroom h1'
          | succ k => exact h3 k u u' v hk hk' hs
  obtain ⟨c', ec, lc, hc⟩ := hch tr.npoints tr.charged saC hlC hC
  obtain ⟨n', en, ln, hn⟩ := hne tr.npoints tr.neutral saN hlN hN
  refine ⟨{ tr with charged := c', neutral := n', lastStep := some step }, ?_, rfl, rfl, lc, ln,
    hc, hn, ?_⟩
  · unfold Traj.recordData
    rw [if_neg (fun h => hlast h.symm)]
    simp [bind, Except.bind, ec, en, pure, Except.pure]
  · unfold Traj.recordData
    rw [if_pos rfl]
    rfl

/-- **C19 (repeated call).** Whatever the state, a call for the step that was
remembered last adds nothing. -/
theorem C19_same_step (tr : Traj δ) (saC saN : List (SAP α)) (step : Int) (mkC mkN : α → δ)
    (h : tr.lastStep = some step) : tr.recordData saC saN step mkC mkN = .ok tr := by
  unfold Traj.recordData
  rw [if_pos h.symm]
  rfl

/-- A charged species with two trajectories (particles 0 and 1), buffers of two
points, the second one full. -/
def demoFull : Traj Nat :=
  { npoints := 2, lastStep := some 4
    charged := [⟨[0, 1], [0, 2], [[0, 0], [8, 9]]⟩], neutral := [] }

/-- **C19 is false** for charged species with a full buffer: the first call for step
5 records particle 0 and returns early, so the second call for step 5 records
particle 0 again. -/
theorem C19_false_charged :
    (∀ t ∈ demoFull.charged, TrajSp.Reach 2 t) ∧
    (demoFull.recordData [demoSAP 2 [70, 71]] [] 5 id id).map
      (fun tr => (tr.lastStep, tr.charged.map (fun t => (points t 0, points t 1)))) =
      .ok (some 4, [([70], [8, 9])]) ∧
    (do
      let tr ← demoFull.recordData [demoSAP 2 [70, 71]] [] 5 id id
      let tr ← tr.recordData [demoSAP 2 [70, 71]] [] 5 id id
      return tr.charged.map (fun t => (points t 0, points t 1))) =
      Except.ok (ε := Err) [([70, 70], [8, 9])] := by
  refine ⟨?_, by decide, by decide⟩
  intro t ht
  simp only [demoFull, List.mem_singleton] at ht
  subst ht
  have h0 : TrajSp.Reach 2 (TrajSp.create 2 0 (TrajSp.create 2 0 TrajSp.empty 0) 1) :=
    ((Run.refl _).tail (.create 0 0)).tail (.create 0 1)
  have h1 := h0.tail (t'' := ⟨[0, 1], [0, 1], [[0, 0], [8, 0]]⟩)
    (.datum (full := 1) (d := 8) (by decide))
  exact h1.tail (.datum (full := 1) (d := 9) (by decide))

/-- **C19 is false** for neutral species with a full buffer: the call raises
IndexError. -/
theorem C19_false_neutral :
    TrajSp.Reach 1 (⟨[0], [1], [[9]]⟩ : TrajSp Nat) ∧
    (⟨1, some 4, [], [⟨[0], [1], [[9]]⟩]⟩ : Traj Nat).recordData [] [demoSAP 2 [70]] 5 id id
      = .error .index := by
  refine ⟨?_, by decide⟩
  have h0 : TrajSp.Reach 1 (TrajSp.create 1 0 TrajSp.empty 0) := (Run.refl _).tail (.create 0 0)
  exact h0.tail (.datum (full := 0) (d := 9) (by decide))

/-- Non-vacuity of the partial statement. -/
example : ((⟨2, some 4, [⟨[0, -1, 1], [0, 1, 1], [[0, 0], [9, 0], [8, 9]]⟩],
      [⟨[0], [0], [[0, 0]]⟩]⟩ : Traj Nat).recordData [demoSAP 2 [70, 71]] [demoSAP 2 [50]] 5 id
        (· + 1)).map (fun tr => (tr.lastStep,
          tr.charged.map (fun t => [points t 0, points t 1, points t 2]),
          tr.neutral.map (fun t => points t 0))) =
    .ok (some 5, [[[70], [9], [8, 71]]], [[51]]) := by decide

/-! ## C20 -/

open Recorded

theorem scheduled_length (n skip : Nat) (hs : 0 < skip) :
    (scheduled n skip).length = n / skip + 1 := by
  unfold scheduled
  induction n with
  | zero => simp
  | succ n ih =>
    rw [List.range_succ, List.filter_append, List.length_append, ih]
    by_cases h : (n + 1) % skip = 0
    · have h1 : (n + 1) / skip = n / skip + 1 := by
        rw [Nat.succ_div, if_pos (Nat.dvd_of_mod_eq_zero h)]
      simp [h, h1]
    · have h1 : (n + 1) / skip = n / skip := by
        rw [Nat.succ_div, if_neg (fun hd => h (Nat.mod_eq_zero_of_dvd hd))]
        rfl
      simp [h, h1]

/-- **C20.** With a positive (or no) maximum and given extra points the sizes are
computed, the schedule (every `skip`-th step from 0 to `n`) plus the extra points
fits exactly in `npoints`, and the schedule has at most `max_points` points. -/
theorem C20_schedule_fits (n : Nat) (m : Option Nat) (hm : m ≠ some 0) (extra : Nat) :
    ∃ skip npoints, trajSizes n m (some extra) = .ok (skip, npoints) ∧ 0 < skip ∧
      (scheduled n skip).length + extra = npoints ∧
      (∀ mx, m = some mx → (scheduled n skip).length ≤ mx) ∧
      (m = none → scheduled n skip = List.range (n + 1)) := by
  cases m with
  | none =>
    refine ⟨1, n / 1 + 1 + extra, rfl, by omega, by rw [scheduled_length n 1 (by omega)],
      by simp, fun _ => ?_⟩
    unfold scheduled
    rw [List.filter_eq_self]
    intro a _
    simp [Nat.mod_one]
  | some mx =>
    cases mx with
    | zero => exact absurd rfl hm
    | succ k =>
      have h1 : n < (n / (k + 1) + 1) * (k + 1) := by
        have h3 := Nat.div_add_mod n (k + 1)
        have h4 : n % (k + 1) < k + 1 := Nat.mod_lt n (Nat.succ_pos k)
        rw [Nat.add_mul, Nat.mul_comm]
        omega
      have hpos : 0 < n / (k + 1) + 1 := Nat.succ_pos _
      refine ⟨n / (k + 1) + 1, n / (n / (k + 1) + 1) + 1 + extra, rfl, hpos,
        by rw [scheduled_length n _ hpos], ?_, by simp⟩
      intro mx h
      simp only [Option.some.injEq] at h
      subst h
      rw [scheduled_length n _ hpos]
      exact (Nat.div_lt_iff_lt_mul hpos).2 (by rw [Nat.mul_comm (k + 1)]; exact h1)

/-- **C20 (errors).** The constructor raises exactly when `max_points` is 0
(ZeroDivisionError) or `extra_points` was left at None (TypeError). -/
theorem C20_errors (n : Nat) (m extra : Option Nat) :
    (∃ e, trajSizes n m extra = .error e) ↔ m = some 0 ∨ extra = none := by
  unfold trajSizes
  rcases m with _ | _ | k <;> cases extra <;>
    simp [bind, Except.bind, pure, Except.pure]

example : trajSizes 1000 (some 30) (some 1) = .ok (34, 31) ∧
    (scheduled 1000 34).length = 30 := by decide +kernel

/-! ## C21 -/

/-- **C21.** When a particle with a live trajectory is removed, its trajectory gets
one more point, if there is room: built for this step and time, or for one step and
`dt` later if the last scheduled record has this step.  Its index becomes NO_PINDEX.
Nothing else changes. -/
theorem C21_final_point {np : Nat} {t : TrajSp δ} (ht : TrajSp.Reach np t) {full : Int}
    (hmem : full ∈ t.idx) (last : Option Int) (step : Int) (time dt : T) (mk : Int → T → δ) :
    ∃ (t' : TrajSp δ) (j : Nat), TrajSp.remove np last t full step time dt mk = .ok t' ∧
      t.idx[j]? = some full ∧ (∀ k < j, t.idx[k]? ≠ some full) ∧
      t'.idx[j]? = some (-1) ∧ (∀ k, k ≠ j → t'.idx[k]? = t.idx[k]?) ∧
      ((points t j).length < np → last = some step →
        points t' j = points t j ++ [mk (step + 1) (time + dt)]) ∧
      ((points t j).length < np → last ≠ some step →
        points t' j = points t j ++ [mk step time]) ∧
      (np ≤ (points t j).length → points t' j = points t j) ∧
      ∀ k, k ≠ j → points t' k = points t k := by
  obtain ⟨j, hj⟩ := indexOf_mem hmem
  obtain ⟨t', e, -, h2, h3⟩ := remove_ok (reach_wf ht) hj last step time dt mk
  obtain ⟨k1, k2, k3⟩ := indexOf_ok hj
  have hj' := h3 j
  rw [if_pos rfl] at hj'
  refine ⟨t', j, e, k1, k3, ?_, ?_, ?_, ?_, ?_, ?_⟩
  · rw [h2, List.getElem?_set, if_pos rfl, if_pos k2]
  · intro k hk
    rw [h2, List.getElem?_set, if_neg (Ne.symm hk)]
  · intro hroom hl
    rw [hj', if_pos hl.symm]
    unfold addPt
    rw [if_pos hroom]
  · intro hroom hl
    rw [hj', if_neg (fun h => hl h.symm)]
    unfold addPt
    rw [if_pos hroom]
  · intro hfull
    rw [hj']
    unfold addPt
    rw [if_neg (by omega)]
  · intro k hk
    rw [h3 k, if_neg hk]

/-- Non-vacuity: both stamps. -/
example : (TrajSp.remove 2 (some 5) (TrajSp.create 2 (0, 0) TrajSp.empty 3) 3 5 50 10
      (fun s t => (s, t))).map (fun t => (t.idx, points t 0)) = .ok ([-1], [(6, 60)]) ∧
    (TrajSp.remove 2 (some 4) (TrajSp.create 2 (0, 0) TrajSp.empty 3) 3 5 50 10
      (fun s t => (s, t))).map (fun t => (t.idx, points t 0)) = .ok ([-1], [(5, 50)]) := by
  decide

end Dt
