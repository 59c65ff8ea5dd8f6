import Verif.Lemmas.Sources
import Verif.Lemmas.SAPClient
import Verif.Lemmas.MapLoop

set_option linter.unusedSectionVars false

namespace Dt
namespace SAP
variable {α : Type}

theorem pushAll_stale (x : α) (k : Nat) {u : SAP α} (h : u.Inv) (hs : ¬ u.Synced) (hf : 0 < u.outA.fao)
    (hk : (u.contents.length + k) % u.sl = 0) :
    ∃ e, u.pushAll (List.replicate (k + 1) x) = .error e := by
  have hne : 0 < u.contents.length := by
    have h1 := contents_length h
    have h2 := h.out.fnf0
    have h3 : 0 ≤ u.outA.fnf * (u.sl : Int) := Int.mul_nonneg h2 (by omega)
    unfold getNumberOfItems at h1
    omega
  induction k generalizing u with
  | zero =>
    have hfull : u.outA.fao = u.sl := (full_iff h (fun _ => hf)).2
      ⟨List.length_pos_iff.1 hne, by simpa using hk⟩
    exact ⟨.assertion, by simp [pushAll, pushBack_err x hfull hs, bind, Except.bind]⟩
  | succ k ih =>
    rcases pushBack_cases h with hp | ⟨hf', hs'⟩
    · obtain ⟨u1, e1, hi1, hc1, hsl1, _, _, _, _, hcur1, _, hfao1⟩ := pushBack_ok h x hp
      have hl : u1.contents.length = u.contents.length + 1 := by rw [hc1]; simp
      obtain ⟨e, he⟩ := ih hi1 (by unfold Synced at *; omega) hfao1
        (by rw [hl, hsl1, Nat.add_assoc, Nat.add_comm 1 k]; exact hk) (by omega)
      refine ⟨e, ?_⟩
      rw [List.replicate_succ]
      simp only [pushAll, e1, bind, Except.bind, he]
    · exact ⟨.assertion, by rw [List.replicate_succ]; simp [pushAll, pushBack_err x hf' hs', bind, Except.bind]⟩

/-- Any number of particles can be appended exactly if the cursor is in step. -/
theorem canGrow_iff [Inhabited α] {s : SAP α} (h : s.Inv) : Spec.CanGrow s ↔ s.Synced := by
  constructor
  · intro hg
    by_contra hs
    have x : α := default
    rcases pushBack_cases h with hp | ⟨hf', hs'⟩
    · obtain ⟨u1, e1, hi1, hc1, hsl1, _, _, _, _, hcur1, _, hfao1⟩ := pushBack_ok h x hp
      have hpos := h.out.pos
      obtain ⟨e, he⟩ := pushAll_stale x (u1.sl - u1.contents.length % u1.sl) hi1
        (by unfold Synced at *; omega) hfao1 (by
          rw [hsl1]
          have := Nat.mod_lt u1.contents.length hpos
          rw [Nat.add_mod, ← Nat.add_mod, ← Nat.mod_add_mod, Nat.add_sub_cancel' this.le]
          simp)
      obtain ⟨r, hr⟩ := hg (x :: List.replicate (u1.sl - u1.contents.length % u1.sl + 1) x)
      simp only [pushAll, e1, bind, Except.bind, he] at hr
      cases hr
    · obtain ⟨r, hr⟩ := hg [x]
      simp [pushAll, pushBack_err x hf' hs', bind, Except.bind] at hr
  · intro hs zs
    obtain ⟨s', rs, e, _⟩ := pushAll_ok h hs zs
    exact ⟨_, e⟩

/-- With the cursor in step, the record just appended is found in the current "out" segment. -/
theorem viewGet_pushed {s : SAP α} (h : s.Inv) (hs : s.Synced) (x : α) :
    ∃ s', s.pushBack x = .ok (s', (((s.contents.length % s.sl : Nat) : Int),
        (s.contents.length : Int))) ∧ s'.Inv ∧ s'.Synced ∧ s'.contents = s.contents ++ [x] ∧
      s'.viewGet s'.getCurrentOutSegment ((s.contents.length % s.sl : Nat) : Int) = .ok x ∧
      s'.getItem s.contents.length = .ok x := by
  obtain ⟨s1, e1, hi1, hc1, hsl1, _, _, _, _, hcur1, _, hfao1⟩ := pushBack_ok h x (.inr hs)
  have hs1 : s1.Synced := by unfold Synced at *; omega
  have hl : s1.contents.length = s.contents.length + 1 := by rw [hc1]; simp
  refine ⟨s1, e1, hi1, hs1, hc1, ?_, ?_⟩
  · obtain ⟨f, o, hf, ho, _, hol, _, _⟩ := hi1.out.total
    have hcl := contents_length hi1
    unfold getNumberOfItems at hcl
    rw [hf, ho, hsl1, hl] at hcl
    have hn : s.contents.length + 1 = f * s.sl + o := by exact_mod_cast hcl
    have ho1 : 0 < o := by rw [ho] at hfao1; exact_mod_cast hfao1
    rw [hsl1] at hol
    have hlen : s.contents.length = f * s.sl + (o - 1) := by omega
    have hmod : s.contents.length % s.sl = o - 1 := by
      rw [hlen, Nat.mul_comm, Nat.mul_add_mod, Nat.mod_eq_of_lt (by omega)]
    have hv : s1.getCurrentOutSegment = ⟨s1.outSel, (f : Int)⟩ := by
      unfold getCurrentOutSegment
      unfold Synced at hs1
      rw [hs1, hf]
    rw [hv, hmod, viewGet_out hi1 f (o - 1) (by rw [hsl1]; omega) (by rw [hsl1, hl]; omega)]
    congr 1
    simp only [hc1, hsl1]
    rw [List.getElem_append_right (by omega)]
    simp [← hlen]
  · rw [getItem_ok hi1 (by omega)]
    congr 1
    simp [hc1]

end SAP

namespace Sources
open SAP
variable {K γ φ δ σ ρ β : Type}

/-- A sequence of steps, each producing one item. -/
inductive Chain (R : σ → σ → ρ → Prop) : σ → List ρ → σ → Prop
  | nil (s : σ) : Chain R s [] s
  | cons {s s1 s2 : σ} {p : ρ} {ps : List ρ} (h : R s s1 p) (t : Chain R s1 ps s2) :
      Chain R s (p :: ps) s2

theorem Chain.append {R : σ → σ → ρ → Prop} {s s1 s2 : σ} {ps qs : List ρ} (h : Chain R s ps s1)
    (h' : Chain R s1 qs s2) : Chain R s (ps ++ qs) s2 := by
  induction h with
  | nil => exact h'
  | cons h _ ih => exact .cons h (ih h')

/-- A loop whose body makes chains makes a chain. -/
theorem foldlM_chain {f : σ → β → Except Err σ} {R : σ → σ → ρ → Prop} {I : σ → Prop}
    (bs : List β)
    (hf : ∀ b ∈ bs, ∀ s s', I s → f s b = .ok s' → I s' ∧ ∃ ps, Chain R s ps s') {s s' : σ}
    (h : bs.foldlM f s = .ok s') (hi : I s) : I s' ∧ ∃ ps, Chain R s ps s' := by
  induction bs generalizing s with
  | nil =>
    simp only [List.foldlM_nil, pure, Except.pure, Except.ok.injEq] at h
    subst h
    exact ⟨hi, [], .nil _⟩
  | cons b bs ih =>
    rw [List.foldlM_cons] at h
    simp only [bind, Except.bind] at h
    split at h
    · cases h
    rename_i s1 h1
    obtain ⟨hi1, ps, c1⟩ := hf b List.mem_cons_self s s1 hi h1
    obtain ⟨hi2, qs, c2⟩ := ih (fun b' hb' => hf b' (List.mem_cons_of_mem _ hb')) h hi1
    exact ⟨hi2, ps ++ qs, c1.append c2⟩

/-- A loop whose body can only fail in ways `E` can only fail in ways `E`. -/
theorem foldlM_progress {f : σ → β → Except Err σ} {I : σ → Prop} {E : Err → Prop} (bs : List β)
    (hf : ∀ b ∈ bs, ∀ s, I s → (∃ e, f s b = .error e ∧ E e) ∨ ∃ s', f s b = .ok s' ∧ I s') {s : σ}
    (hi : I s) : (∃ e, bs.foldlM f s = .error e ∧ E e) ∨ ∃ s', bs.foldlM f s = .ok s' ∧ I s' := by
  induction bs generalizing s with
  | nil => exact .inr ⟨s, rfl, hi⟩
  | cons b bs ih =>
    rw [List.foldlM_cons]
    simp only [bind, Except.bind]
    rcases hf b List.mem_cons_self s hi with ⟨e, he, hE⟩ | ⟨s1, h1, hi1⟩
    · rw [he]; exact .inl ⟨e, rfl, hE⟩
    · rw [h1]; exact ih (fun b' hb' => hf b' (List.mem_cons_of_mem _ hb')) hi1

variable [Field K]

/-- One creation, seen from the trajectories. -/
structure TrajStep (env : Env K γ φ δ) (step time : Arg K) (st st' : St K γ δ) (p : Rec K) : Prop where
  stored : st'.store.contents = st.store.contents ++ [p]
  ctr : st'.ctr = st.ctr + 1
  same : st.ctr ≠ 500 → st'.traj = st.traj
  begun : st.ctr = 500 → ∀ t, st.traj = some t → ∃ f t', env.fields p = .ok f ∧
    TrajSp.recordDatum env.npoints (t.create env.npoints env.junk st.store.contents.length)
      st.store.contents.length (env.mkPt step time p f) = .ok t' ∧ st'.traj = some t'

theorem createOne_traj {env : Env K γ φ δ} {step time : Arg K} {r : Region K} {par : Params K} {w : K}
    {c : SrcCell K} {icell ip : Nat} {st st' : St K γ δ} (hi : st.store.Inv) (hs : st.store.Synced)
    (h : createOne env step time r par w c icell st ip = .ok st') :
    (st'.store.Inv ∧ st'.store.Synced) ∧ ∃ p, TrajStep env step time st st' p := by
  unfold createOne at h
  simp only [bind, Except.bind] at h
  split at h
  · cases h
  rename_i q1 hpl
  obtain ⟨pc, g1⟩ := q1
  simp only at h
  split at h
  · cases h
  rename_i q2 hv
  obtain ⟨vel, g2⟩ := q2
  simp only at h
  obtain ⟨s1, e1, hi1, hs1, hc1, hview, _⟩ := viewGet_pushed hi hs
    (⟨pc, pc, vel, w, newFlags st.ctr, c.index, wrap32 st.ctr, 0⟩ : Rec K)
  rw [e1] at h
  simp only at h
  rw [newFlags_flag] at h
  by_cases h500 : st.ctr = 500
  · rw [if_pos (decide_eq_true h500)] at h
    unfold startTrajectory at h
    cases ht : st.traj with
    | none =>
      rw [ht] at h
      simp only [Except.ok.injEq] at h
      subst h
      exact ⟨⟨hi1, hs1⟩, _, hc1, rfl, fun hne => absurd h500 hne,
        fun _ t h' => by rw [ht] at h'; cases h'⟩
    | some t =>
      rw [ht] at h
      simp only [bind, Except.bind] at h
      split at h
      · cases h
      rename_i f hf
      rw [hview] at h
      simp only at h
      split at h
      · cases h
      rename_i t2 ht2
      simp only [pure, Except.pure, Except.ok.injEq] at h
      subst h
      refine ⟨⟨hi1, hs1⟩, _, hc1, rfl, fun hne => absurd h500 hne, ?_⟩
      intro _ t' h'
      rw [ht] at h'
      simp only [Option.some.injEq] at h'
      subst h'
      exact ⟨f, t2, hf, ht2, rfl⟩
  · simp only [h500, decide_false, Bool.false_eq_true, if_false, pure, Except.pure,
      Except.ok.injEq] at h
    subst h
    exact ⟨⟨hi1, hs1⟩, _, hc1, rfl, fun _ => rfl, fun h => absurd h h500⟩

theorem createMaxwellian_chain [DecidableEq K] {env : Env K γ φ δ} {step time : Arg K} {r : Region K}
    {par : Params K} {st st' : St K γ δ} (hi : st.store.Inv) (hs : st.store.Synced)
    (h : createMaxwellian env step time r par st = .ok st') :
    (st'.store.Inv ∧ st'.store.Synced) ∧
      ∃ ps, Chain (TrajStep env step time) { st with pc := List.replicate env.pDim 0 } ps st' := by
  unfold createMaxwellian at h
  simp only [bind, Except.bind] at h
  split at h
  · cases h
  refine (foldlM_chain (I := fun s : St K γ δ => s.store.Inv ∧ s.store.Synced) _ ?_ h ⟨hi, hs⟩)
  intro ci _ s s' hI hc
  unfold createCell at hc
  refine foldlM_chain (I := fun s : St K γ δ => s.store.Inv ∧ s.store.Synced) _ ?_ hc hI
  intro ip _ s s' hI hc
  obtain ⟨a, p, b⟩ := createOne_traj hI.1 hI.2 hc
  exact ⟨a, [p], .cons b (.nil _)⟩

/-- Along a chain the trajectories change at number 500 only. -/
theorem chain_traj {env : Env K γ φ δ} {step time : Arg K} {st st' : St K γ δ} {ps : List (Rec K)}
    (h : Chain (TrajStep env step time) st ps st') :
    st'.store.contents = st.store.contents ++ ps ∧ st'.ctr = st.ctr + ps.length ∧
    (500 < st.ctr ∨ st'.ctr ≤ 500 → st'.traj = st.traj) ∧
    (st.ctr ≤ 500 → 500 < st'.ctr → ∀ t, st.traj = some t →
      ∃ (p : Rec K) (f : φ) (t' : TrajSp δ), ps[500 - st.ctr]? = some p ∧ env.fields p = .ok f ∧
        TrajSp.recordDatum env.npoints
          (t.create env.npoints env.junk ((st.store.contents.length + (500 - st.ctr) : Nat) : Int))
          ((st.store.contents.length + (500 - st.ctr) : Nat) : Int) (env.mkPt step time p f) = .ok t' ∧
        st'.traj = some t') := by
  induction h with
  | nil s => exact ⟨by simp, by simp, fun _ => rfl, fun h1 h2 => by omega⟩
  | @cons s s1 s2 p ps h1 _ ih =>
    obtain ⟨a, b, c, d⟩ := ih
    have e1 := h1.ctr
    refine ⟨by rw [a, h1.stored]; simp, by rw [b, e1]; simp; omega, ?_, ?_⟩
    · intro hh
      rw [c (by omega), h1.same (by omega)]
    · intro hle hlt t ht
      by_cases h500 : s.ctr = 500
      · obtain ⟨f, t', x1, x2, x3⟩ := h1.begun h500 t ht
        refine ⟨p, f, t', by simp [h500], x1, ?_, ?_⟩
        · simpa [h500] using x2
        · rw [c (by omega), x3]
      · obtain ⟨q, f, t', x0, x1, x2, x3⟩ := d (by omega) hlt t (by rw [h1.same h500, ht])
        refine ⟨q, f, t', ?_, x1, ?_, x3⟩
        · rw [show 500 - s.ctr = (500 - s1.ctr) + 1 by omega]
          simpa using x0
        · have hlen : s1.store.contents.length + (500 - s1.ctr) =
              s.store.contents.length + (500 - s.ctr) := by
            rw [h1.stored]; simp; omega
          rw [hlen] at x2
          exact x2

/-! ### Creation raises only if the sampling of positions does not end -/

theorem trial_progress {env : Env K γ φ δ} {r : Region K} {c : SrcCell K} {icell : Nat} (n : Nat)
    {pc : List K} {g : γ} (hl : c.mid.length ≤ pc.length) :
    trial env r c icell n pc g = .error .fuel ∨ ∃ q, trial env r c icell n pc g = .ok q := by
  induction n generalizing pc g with
  | zero => exact .inl rfl
  | succ n ih =>
    simp only [trial, bind, Except.bind]
    have hlen : (List.zipWith (fun m v => m + v * c.rad) c.mid
        (drawN env.uni c.mid.length g).1).length = c.mid.length := by
      simp [drawN_length]
    have hf : fillCoord (List.zipWith (fun m v => m + v * c.rad) c.mid
        (drawN env.uni c.mid.length g).1) pc = .ok (List.zipWith (fun m v => m + v * c.rad) c.mid
        (drawN env.uni c.mid.length g).1 ++ pc.drop c.mid.length) := by
      unfold fillCoord
      rw [hlen, if_pos hl]
    rw [hf]
    simp only
    split
    · exact .inr ⟨_, rfl⟩
    · exact ih (by simp [drawN_length])

/-- What creation needs of the state: cursor in step, scratch array of the right length,
trajectory lists in order. -/
structure Able (env : Env K γ φ δ) (st : St K γ δ) : Prop where
  inv : st.store.Inv
  synced : st.store.Synced
  pc : st.pc.length = env.pDim
  traj : ∀ t, st.traj = some t → TrajSp.WF env.npoints t

theorem startTrajectory_total {env : Env K γ φ δ} {step time : Arg K} {p q : Rec K} {seg full : Int}
    {st : St K γ δ} (hf : ∃ f, env.fields p = .ok f)
    (hv : st.store.viewGet st.store.getCurrentOutSegment seg = .ok q)
    (ht : ∀ t, st.traj = some t → TrajSp.WF env.npoints t) :
    ∃ st', startTrajectory env step time p seg full st = .ok st' ∧
      ∀ t, st'.traj = some t → TrajSp.WF env.npoints t := by
  unfold startTrajectory
  cases h : st.traj with
  | none => exact ⟨st, rfl, fun t h' => by rw [h] at h'; cases h'⟩
  | some t =>
    obtain ⟨f, hf⟩ := hf
    simp only [bind, Except.bind, hf, hv]
    have hw := TrajSp.create_wf (ht t h) env.junk full
    obtain ⟨j, hj⟩ := TrajSp.indexOf_mem (xs := (t.create env.npoints env.junk full).idx) (v := full)
      (by simp [TrajSp.create])
    obtain ⟨t', e, w', _⟩ := TrajSp.recordDatum_ok hw.1 hj (env.mkPt step time q f)
    rw [e]
    refine ⟨_, rfl, ?_⟩
    intro t2 h2
    simp only [Option.some.injEq] at h2
    subst h2
    exact w'

theorem createOne_progress {env : Env K γ φ δ} {step time : Arg K} {r : Region K} {par : Params K}
    {w : K} {c : SrcCell K} {icell ip : Nat} {st : St K γ δ} (ha : Able env st)
    (hd : par.drift.length = env.pDim ∨ par.drift.length = 1) (hm : c.mid.length ≤ env.pDim)
    (hf : ∀ p, ∃ f, env.fields p = .ok f) :
    (∃ e, createOne env step time r par w c icell st ip = .error e ∧ e = .fuel) ∨
      ∃ st', createOne env step time r par w c icell st ip = .ok st' ∧ Able env st' := by
  have hplace : place env r c icell ip st.pc st.rng = .error .fuel ∨
      ∃ q, place env r c icell ip st.pc st.rng = .ok q := by
    unfold place
    split
    · right
      unfold fillCoord
      rw [if_pos (by rw [ha.pc]; exact hm)]
      exact ⟨_, rfl⟩
    · exact trial_progress _ (by rw [ha.pc]; exact hm)
  rcases hplace with hp | ⟨⟨pc, g1⟩, hp⟩
  · left
    refine ⟨_, ?_, rfl⟩
    unfold createOne
    rw [hp]
    rfl
  right
  have hvel : ∃ q, velocity env par.drift g1 = .ok q := by
    unfold velocity
    simp only
    split
    · exact ⟨_, rfl⟩
    · rename_i hne
      rcases hd with h | h
      · exact absurd h hne
      · obtain ⟨d, hd⟩ := List.length_eq_one_iff.1 h
        rw [hd]
        exact ⟨_, rfl⟩
  obtain ⟨⟨vel, g2⟩, hv⟩ := hvel
  obtain ⟨s1, e1, hi1, hs1, hc1, hview, _⟩ := viewGet_pushed ha.inv ha.synced
    (⟨pc, pc, vel, w, newFlags st.ctr, c.index, wrap32 st.ctr, 0⟩ : Rec K)
  have hpcl : pc.length = env.pDim := by rw [(place_ok hp).1, ha.pc]
  unfold createOne
  rw [hp]
  simp only [bind, Except.bind, hv, e1]
  split
  · obtain ⟨st', e, ht⟩ := startTrajectory_total (env := env) (step := step) (time := time)
      (p := ⟨pc, pc, vel, w, newFlags st.ctr, c.index, wrap32 st.ctr, 0⟩)
      (full := (st.store.contents.length : Int))
      (st := { ctr := st.ctr + 1, store := s1, traj := st.traj, pc := pc, rng := g2 }) (hf _) hview
      ha.traj
    obtain ⟨b1, b2, b3, b4, b5⟩ := startTrajectory_ok e
    exact ⟨st', e, by rw [b2]; exact hi1, by rw [b2]; exact hs1, by rw [b3]; exact hpcl, ht⟩
  · exact ⟨_, rfl, hi1, hs1, hpcl, ha.traj⟩

theorem createMaxwellian_progress [DecidableEq K] {env : Env K γ φ δ} {step time : Arg K}
    {r : Region K} {par : Params K} {st : St K γ δ} (hi : st.store.Inv) (hs : st.store.Synced)
    (ht : ∀ t, st.traj = some t → TrajSp.WF env.npoints t) (hn : par.perCell ≠ 0)
    (hd : par.drift.length = env.pDim ∨ par.drift.length = 1)
    (hm : ∀ c ∈ r.cells, c.mid.length ≤ env.pDim) (hf : ∀ p, ∃ f, env.fields p = .ok f) :
    createMaxwellian env step time r par st = .error .fuel ∨
      ∃ st', createMaxwellian env step time r par st = .ok st' := by
  have hw : ∃ wm, weightMult env par = .ok wm := by
    unfold weightMult
    rw [if_neg hn]
    exact ⟨_, rfl⟩
  obtain ⟨wm, hw⟩ := hw
  unfold createMaxwellian
  rw [hw]
  simp only [bind, Except.bind]
  have key := foldlM_progress (f := createCell env step time r par wm) (I := Able env)
    (E := fun e => e = .fuel) r.cells.zipIdx (by
      intro ci hci s hs
      unfold createCell
      refine foldlM_progress (I := Able env) (E := fun e => e = .fuel) _ ?_ hs
      intro ip _ s hs
      exact createOne_progress hs hd (hm ci.1 (List.fst_mem_of_mem_zipIdx hci)) hf)
    (s := { st with pc := List.replicate env.pDim 0 }) ⟨hi, hs, by simp, ht⟩
  rcases key with ⟨e, h1, rfl⟩ | ⟨s', h1, _⟩
  · exact .inl h1
  · exact .inr ⟨s', h1⟩

/-! ### Listed particles -/

/-- The trajectory indices of the flagged ones among `xs`, the first of which is stored at `n`. -/
def flaggedAt (n : Nat) : List (Rec K) → List Int
  | [] => []
  | x :: xs => if hasFlag x.flags trajFlag then (n : Int) :: flaggedAt (n + 1) xs else flaggedAt (n + 1) xs

theorem createAll (env : Env K γ φ δ) (t : TrajSp δ) (is js : List Int) :
    (is ++ js).foldl (fun t i => t.create env.npoints env.junk i) t =
      js.foldl (fun t i => t.create env.npoints env.junk i)
        (is.foldl (fun t i => t.create env.npoints env.junk i) t) := by
  rw [List.foldl_append]

theorem listLoop_ok {env : Env K γ φ δ} (list : List (Rec K)) (n k : Nat) (hn : k + n ≤ list.length)
    {st : St K γ δ} (hr : Reachable st.store) (hs : st.store.Synced) :
    ∃ st', (List.range' k n).foldlM (listOne env list) st = .ok st' ∧ Reachable st'.store ∧
      st'.store.Synced ∧ st'.store.contents = st.store.contents ++ (list.drop k).take n ∧
      st'.ctr = st.ctr ∧ st'.pc = st.pc ∧ st'.rng = st.rng ∧
      st'.traj = st.traj.map (fun t => (flaggedAt st.store.contents.length ((list.drop k).take n)).foldl
        (fun t i => t.create env.npoints env.junk i) t) := by
  induction n generalizing k st with
  | zero =>
    refine ⟨st, rfl, hr, hs, by simp, rfl, rfl, rfl, ?_⟩
    cases st.traj <;> simp [flaggedAt]
  | succ n ih =>
    have hk : k < list.length := by omega
    have hi := reachable_inv hr
    obtain ⟨s1, e1, hi1, hs1, hc1, _, hget⟩ := viewGet_pushed hi hs list[k]
    have hr1 := Reachable.push hr e1
    have hstep : ∃ st1, listOne env list st k = .ok st1 ∧ st1.store = s1 ∧ st1.ctr = st.ctr ∧
        st1.pc = st.pc ∧ st1.rng = st.rng ∧ st1.traj = st.traj.map (fun t =>
          if hasFlag list[k].flags trajFlag then
            t.create env.npoints env.junk st.store.contents.length else t) := by
      unfold listOne
      rw [pyGet_of_lt hk]
      simp only [bind, Except.bind, e1]
      have h2 := Traj.getItem_two_steps s1 (st.store.contents.length : Int)
      rw [hget] at h2
      simp only [bind, Except.bind] at h2
      split at h2
      · cases h2
      rename_i q hq
      obtain ⟨pseg, off⟩ := q
      simp only at h2 ⊢
      rw [← h2]
      simp only
      cases hfl : hasFlag list[k].flags trajFlag <;> cases htr : st.traj <;>
        exact ⟨_, rfl, rfl, rfl, rfl, rfl, by simp [htr]⟩
    obtain ⟨st1, f0, f1, f2, f3, f4, f5⟩ := hstep
    obtain ⟨st', g0, g1, g2, g3, g4, g5, g6, g7⟩ := ih (k + 1) (by omega) (st := st1)
      (by rw [f1]; exact hr1) (by rw [f1]; exact hs1)
    have hlen : s1.contents.length = st.store.contents.length + 1 := by rw [hc1]; simp
    have htake : (list.drop k).take (n + 1) = list[k] :: (list.drop (k + 1)).take n := by
      rw [List.drop_eq_getElem_cons hk, List.take_succ_cons]
    refine ⟨st', ?_, g1, g2, ?_, by rw [g4, f2], by rw [g5, f3], by rw [g6, f4], ?_⟩
    · rw [List.range'_succ, List.foldlM_cons]
      simp only [bind, Except.bind, f0]
      exact g0
    · rw [g3, f1, hc1, htake]; simp
    · rw [g7, f5, f1, hlen, htake]
      cases st.traj with
      | none => rfl
      | some t =>
        simp only [Option.map_some, Option.some.injEq, flaggedAt]
        cases hasFlag list[k].flags trajFlag <;> simp

theorem listLoop_short {env : Env K γ φ δ} (list : List (Rec K)) (n k : Nat) (hk : k ≤ list.length)
    (hn : list.length < k + n)
    {st : St K γ δ} (hr : Reachable st.store) (hs : st.store.Synced) :
    (List.range' k n).foldlM (listOne env list) st = .error .index := by
  obtain ⟨st', e, _⟩ := listLoop_ok (env := env) list (list.length - k) k (by omega) hr hs
  have h1 : List.range' k n = List.range' k (list.length - k) ++
      list.length :: List.range' (list.length + 1) (n - (list.length - k) - 1) := by
    have := @List.range'_append_1 k (list.length - k) (n - (list.length - k))
    rw [show list.length - k + (n - (list.length - k)) = n by omega] at this
    rw [← this, show k + (list.length - k) = list.length by omega]
    congr 1
    rw [show n - (list.length - k) = (n - (list.length - k) - 1) + 1 by omega, List.range'_succ]
    simp
  rw [h1, List.foldlM_append]
  simp only [bind, Except.bind, e, List.foldlM_cons]
  have : listOne env list st' list.length = .error .index := by
    unfold listOne
    rw [pyGet_nat]
    simp [orIndexErr, bind, Except.bind]
  rw [this]

/-! ### Schedule -/

theorem fmod_eq_zero (a b : Int) : a.fmod b = 0 ↔ b ∣ a := by
  rw [Int.dvd_iff_fmod_eq_zero]

end Sources
end Dt
