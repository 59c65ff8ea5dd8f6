import Mathlib.Tactic.Ring
import Mathlib.Tactic.FieldSimp
import Mathlib.Data.List.Basic
import Verif.Spec.Sources
import Verif.Lemmas.SAPReach
import Verif.Lemmas.OutLoop
import Verif.Lemmas.Traj

set_option linter.unusedSectionVars false

namespace Dt
namespace Sources
open SAP
variable {K γ φ δ : Type}

theorem drawN_length (f : γ → K × γ) (n : Nat) (g : γ) : (drawN f n g).1.length = n := by
  induction n generalizing g with
  | zero => rfl
  | succ n ih => simp [drawN, ih]

theorem fillCoord_ok {vals pc pc' : List K} (h : fillCoord vals pc = .ok pc') :
    vals.length ≤ pc.length ∧ pc'.length = pc.length ∧ pc'.take vals.length = vals ∧
      pc'.drop vals.length = pc.drop vals.length := by
  unfold fillCoord at h
  split at h
  · rename_i hl
    simp only [Except.ok.injEq] at h
    subst h
    refine ⟨hl, by simp; omega, by simp, by simp⟩
  · cases h

variable [Field K]

/-- A new position keeps the components beyond the mesh dimension. -/
theorem trial_ok {env : Env K γ φ δ} {r : Region K} {c : SrcCell K} {icell : Nat} (n : Nat)
    {pc : List K} {g : γ} {pc' : List K} {g' : γ}
    (h : trial env r c icell n pc g = .ok (pc', g')) :
    pc'.length = pc.length ∧ pc'.drop c.mid.length = pc.drop c.mid.length ∧
      r.inCell pc' icell = true := by
  induction n generalizing pc g with
  | zero => cases h
  | succ n ih =>
    simp only [trial, bind, Except.bind] at h
    cases hf : fillCoord (List.zipWith (fun m v => m + v * c.rad) c.mid
        (drawN env.uni c.mid.length g).1) pc with
    | error e => rw [hf] at h; cases h
    | ok pc1 =>
      rw [hf] at h
      simp only at h
      have hl : (List.zipWith (fun m v => m + v * c.rad) c.mid
          (drawN env.uni c.mid.length g).1).length = c.mid.length := by
        simp [drawN_length]
      obtain ⟨h1, h2, h3, h4⟩ := fillCoord_ok hf
      rw [hl] at h4
      split at h
      · rename_i hin
        simp only [pure, Except.pure, Except.ok.injEq, Prod.mk.injEq] at h
        obtain ⟨rfl, _⟩ := h
        exact ⟨h2, h4, hin⟩
      · obtain ⟨a, b, d⟩ := ih h
        exact ⟨by rw [a, h2], by rw [b, h4], d⟩

theorem place_ok {env : Env K γ φ δ} {r : Region K} {c : SrcCell K} {icell ip : Nat}
    {pc : List K} {g : γ} {pc' : List K} {g' : γ}
    (h : place env r c icell ip pc g = .ok (pc', g')) :
    pc'.length = pc.length ∧ pc'.drop c.mid.length = pc.drop c.mid.length ∧
      (ip = 0 → pc'.take c.mid.length = c.mid) ∧ (ip ≠ 0 → r.inCell pc' icell = true) := by
  unfold place at h
  split at h
  · rename_i h0
    cases hf : fillCoord c.mid pc with
    | error e => rw [hf] at h; cases h
    | ok pc1 =>
      rw [hf] at h
      simp only [Except.map, Except.ok.injEq, Prod.mk.injEq] at h
      obtain ⟨rfl, _⟩ := h
      obtain ⟨_, h2, h3, h4⟩ := fillCoord_ok hf
      exact ⟨h2, h4, fun _ => h3, fun h => absurd h0 h⟩
  · rename_i h0
    obtain ⟨a, b, d⟩ := trial_ok _ h
    exact ⟨a, b, fun h => absurd h h0, fun _ => d⟩

theorem drawN_samples (f : γ → K × γ) (n : Nat) (g : γ) : (drawN f n g).1 = samples f n g := by
  induction n generalizing g with
  | zero => rfl
  | succ n ih =>
    unfold samples at *
    rw [List.range_succ_eq_map, List.map_cons, List.map_map]
    simp only [drawN, ih]
    congr 1

theorem velocity_ok {env : Env K γ φ δ} {drift : List K} {g : γ} {v : List K} {g' : γ}
    (h : velocity env drift g = .ok (v, g')) :
    v.length = env.pDim ∧ Moving env.nrm env.pDim drift v := by
  unfold velocity at h
  simp only at h
  have hlen : (samples env.nrm env.pDim g).length = env.pDim := by simp [samples]
  split at h
  · rename_i hd
    simp only [Except.ok.injEq, Prod.mk.injEq] at h
    obtain ⟨rfl, _⟩ := h
    refine ⟨by simp [drawN_length, hd], Or.inl ⟨hd, g, ?_⟩⟩
    rw [drawN_samples]
    refine List.ext_getElem (by simp [hlen, hd]) ?_
    intro i h1 h2
    have h3 : i < env.pDim := by simpa using h2
    rw [List.getElem_zipWith, List.getElem_map, List.getElem_range,
      ← List.getElem_eq_getD (h := by omega), ← List.getElem_eq_getD (h := by omega)]
  · split at h
    · rename_i d _
      simp only [Except.ok.injEq, Prod.mk.injEq] at h
      obtain ⟨rfl, _⟩ := h
      exact ⟨by simp [drawN_length], Or.inr ⟨d, rfl, g, by rw [drawN_samples]⟩⟩
    · cases h

/-- What creating one particle does, if it does not raise. -/
structure One (env : Env K γ φ δ) (r : Region K) (dr : List K) (w : K) (c : SrcCell K) (icell ip : Nat)
    (st st' : St K γ δ) (p : Rec K) : Prop where
  stored : st'.store.contents = st.store.contents ++ [p]
  reach : Reachable st'.store
  synced : st.store.Synced → st'.store.Synced
  ctr : st'.ctr = st.ctr + 1
  uid : p.uid = wrap32 st.ctr
  flags : p.flags = newFlags st.ctr
  weight : p.weight = w
  label : p.cell = c.index
  start : p.x0 = p.x
  fresh : p.crossings = 0
  pc : st'.pc = p.x
  len : p.x.length = st.pc.length
  drop : p.x.drop c.mid.length = st.pc.drop c.mid.length
  u : p.u.length = env.pDim ∧ Moving env.nrm env.pDim dr p.u
  first : ip = 0 → p.x.take c.mid.length = c.mid
  inside : ip ≠ 0 → r.inCell p.x icell = true
  traj : st.ctr ≠ 500 → st'.traj = st.traj
  none : st.traj = none → st'.traj = none

theorem startTrajectory_ok {env : Env K γ φ δ} {step time : Arg K} {p : Rec K} {seg full : Int}
    {st st' : St K γ δ} (h : startTrajectory env step time p seg full st = .ok st') :
    st'.ctr = st.ctr ∧ st'.store = st.store ∧ st'.pc = st.pc ∧ st'.rng = st.rng ∧
      (st.traj = none → st'.traj = none) := by
  unfold startTrajectory at h
  split at h
  · simp only [Except.ok.injEq] at h
    subst h
    exact ⟨rfl, rfl, rfl, rfl, id⟩
  · rename_i t ht
    simp only [bind, Except.bind] at h
    split at h
    · cases h
    · split at h
      · cases h
      · split at h
        · cases h
        · simp only [pure, Except.pure, Except.ok.injEq] at h
          subst h
          exact ⟨rfl, rfl, rfl, rfl, fun h => by rw [ht] at h; cases h⟩

theorem newFlags_flag (n : Nat) : hasFlag (newFlags n) trajFlag = decide (n = 500) := by
  unfold newFlags
  split
  · rename_i h; simp [h]; decide
  · rename_i h; simp [h]; decide

theorem createOne_ok {env : Env K γ φ δ} {step time : Arg K} {r : Region K} {par : Params K} {w : K}
    {c : SrcCell K} {icell ip : Nat} {st st' : St K γ δ} (hr : Reachable st.store)
    (h : createOne env step time r par w c icell st ip = .ok st') :
    ∃ p, One env r par.drift w c icell ip st st' p := by
  have hi := reachable_inv hr
  unfold createOne at h
  simp only [bind, Except.bind] at h
  split at h
  · cases h
  rename_i q1 hpl
  obtain ⟨pc, g1⟩ := q1
  simp only at h
  split at h
  · cases h
  rename_i q2 hv
  obtain ⟨vel, g2⟩ := q2
  simp only at h
  obtain ⟨a1, a2, a3, a4⟩ := place_ok hpl
  have a5 := velocity_ok hv
  split at h
  · cases h
  rename_i q3 hpush
  obtain ⟨store', seg, full⟩ := q3
  simp only at h
  have hreach := Reachable.push hr hpush
  refine ⟨⟨pc, pc, vel, w, newFlags st.ctr, c.index, wrap32 st.ctr, 0⟩, ?_⟩
  have hpushed : store'.contents = st.store.contents ++
      [⟨pc, pc, vel, w, newFlags st.ctr, c.index, wrap32 st.ctr, 0⟩] ∧ (st.store.Synced → store'.Synced) := by
    rcases pushBack_cases hi with hp | ⟨hf, hs⟩
    · obtain ⟨s1, e1, _, hc1, _, _, _, _, _, hcur, _⟩ := pushBack_ok hi _ hp
      rw [hpush] at e1
      simp only [Except.ok.injEq, Prod.mk.injEq] at e1
      obtain ⟨rfl, _⟩ := e1
      exact ⟨hc1, fun hs => by unfold Synced at *; omega⟩
    · rw [pushBack_err _ hf hs] at hpush; cases hpush
  rw [newFlags_flag] at h
  by_cases h500 : st.ctr = 500
  · simp only [h500, decide_true, if_true] at h
    obtain ⟨b1, b2, b3, b4, b5⟩ := startTrajectory_ok h
    exact ⟨by rw [b2]; exact hpushed.1, by rw [b2]; exact hreach, by rw [b2]; exact hpushed.2,
      by rw [b1, h500], rfl, rfl, rfl, rfl, rfl, rfl, b3, a1, a2, a5, a3, a4,
      fun hne => absurd h500 hne, b5⟩
  · simp only [h500, decide_false, Bool.false_eq_true, if_false, pure, Except.pure,
      Except.ok.injEq] at h
    subst h
    exact ⟨hpushed.1, hreach, hpushed.2, rfl, rfl, rfl, rfl, rfl, rfl, rfl, rfl, a1, a2, a5, a3, a4,
      fun _ => rfl, id⟩

/-- The invariant of the scratch array: right length, zero beyond the mesh dimension. -/
def Padded (pDim g : Nat) (pc : List K) : Prop :=
  pc.length = pDim ∧ pc.drop g = List.replicate (pDim - g) 0

/-- One particle, with the counter at which it was made. -/
structure Piece (env : Env K γ φ δ) (r : Region K) (dr : List K) (w : K) (c : SrcCell K) (icell ip ctr : Nat)
    (p : Rec K) : Prop where
  uid : p.uid = wrap32 ctr
  flags : p.flags = newFlags ctr
  weight : p.weight = w
  label : p.cell = c.index
  start : p.x0 = p.x
  fresh : p.crossings = 0
  padded : Padded env.pDim c.mid.length p.x
  u : p.u.length = env.pDim ∧ Moving env.nrm env.pDim dr p.u
  first : ip = 0 → p.x.take c.mid.length = c.mid
  inside : ip ≠ 0 → r.inCell p.x icell = true

/-- What a whole loop does to the state. -/
structure Grown (pDim g : Nat) (st st' : St K γ δ) (ps : List (Rec K)) : Prop where
  stored : st'.store.contents = st.store.contents ++ ps
  reach : Reachable st'.store
  synced : st.store.Synced → st'.store.Synced
  ctr : st'.ctr = st.ctr + ps.length
  padded : Padded pDim g st'.pc
  uids : ps.map Rec.uid = (List.range' st.ctr ps.length).map (fun n : Nat => wrap32 (n : Int))
  traj : (500 < st.ctr ∨ st'.ctr ≤ 500) → st'.traj = st.traj
  none : st.traj = none → st'.traj = none

theorem Grown.refl {pDim g : Nat} {st : St K γ δ} (hr : Reachable st.store)
    (hp : Padded pDim g st.pc) : Grown pDim g st st [] :=
  ⟨by simp, hr, id, by simp, hp, by simp, fun _ => rfl, id⟩

theorem Grown.trans {pDim g : Nat} {st st1 st2 : St K γ δ} {ps qs : List (Rec K)}
    (h1 : Grown pDim g st st1 ps) (h2 : Grown pDim g st1 st2 qs) :
    Grown pDim g st st2 (ps ++ qs) := by
  have e1 := h1.ctr
  have e2 := h2.ctr
  refine ⟨by rw [h2.stored, h1.stored, List.append_assoc], h2.reach, fun h => h2.synced (h1.synced h),
    by rw [e2, e1, List.length_append]; omega, h2.padded, ?_, ?_, fun h => h2.none (h1.none h)⟩
  · rw [List.map_append, h1.uids, h2.uids, e1, ← List.map_append, List.length_append,
      ← List.range'_append_1]
  · intro h
    rw [h2.traj (by omega), h1.traj (by omega)]

theorem cellLoop_ok {env : Env K γ φ δ} {step time : Arg K} {r : Region K} {par : Params K} {w : K}
    {c : SrcCell K} {icell : Nat} (n k : Nat) {st st' : St K γ δ} (hr : Reachable st.store)
    (hp : Padded env.pDim c.mid.length st.pc)
    (h : (List.range' k n).foldlM (createOne env step time r par w c icell) st = .ok st') :
    ∃ ps, Grown env.pDim c.mid.length st st' ps ∧ ps.length = n ∧
      ∀ (i : Nat) (hi : i < ps.length), Piece env r par.drift w c icell (k + i) (st.ctr + i) ps[i] := by
  induction n generalizing k st with
  | zero =>
    simp only [List.range'_zero, List.foldlM_nil, pure, Except.pure, Except.ok.injEq] at h
    subst h
    exact ⟨[], Grown.refl hr hp, rfl, by simp⟩
  | succ n ih =>
    rw [List.range'_succ, List.foldlM_cons] at h
    simp only [bind, Except.bind] at h
    split at h
    · cases h
    rename_i st1 h1
    obtain ⟨p, o⟩ := createOne_ok hr h1
    have hpad : Padded env.pDim c.mid.length p.x := ⟨by rw [o.len, hp.1], by rw [o.drop, hp.2]⟩
    obtain ⟨ps, g, hl, hps⟩ := ih (k + 1) o.reach (by rw [o.pc]; exact hpad) h
    have g1 : Grown env.pDim c.mid.length st st1 [p] :=
      ⟨o.stored, o.reach, o.synced, by simp [o.ctr], by rw [o.pc]; exact hpad,
        by simp [o.uid], fun hh => o.traj (by have := o.ctr; omega), o.none⟩
    refine ⟨p :: ps, by simpa using g1.trans g, by simp [hl], ?_⟩
    intro i hi
    cases i with
    | zero =>
      exact ⟨o.uid, o.flags, o.weight, o.label, o.start, o.fresh, hpad, o.u, o.first, o.inside⟩
    | succ i =>
      have := hps i (by simpa using hi)
      rw [o.ctr, show k + 1 + i = k + (i + 1) by omega,
        show st.ctr + 1 + i = st.ctr + (i + 1) by omega] at this
      exact this

theorem sum_replicate_mem {ps : List (Rec K)} {w : K} (h : ∀ p ∈ ps, p.weight = w) :
    (ps.map Rec.weight).sum = ps.length * w := by
  induction ps with
  | nil => simp
  | cons p ps ih =>
    rw [List.map_cons, List.sum_cons, ih (fun q hq => h q (List.mem_cons_of_mem _ hq)),
      h p List.mem_cons_self, List.length_cons]
    push_cast
    ring

theorem createCell_ok {env : Env K γ φ δ} {step time : Arg K} {r : Region K} {par : Params K} {wm : K}
    {c : SrcCell K} {icell : Nat} {st st' : St K γ δ} (hr : Reachable st.store)
    (hp : Padded env.pDim c.mid.length st.pc)
    (h : createCell env step time r par wm st (c, icell) = .ok st') :
    ∃ ps, Grown env.pDim c.mid.length st st' ps ∧
      IsFill env.nrm env.pDim r par (par.perCell * (c.vol * wm)) c icell ps := by
  unfold createCell at h
  rw [List.range_eq_range'] at h
  obtain ⟨ps, g, hl, hps⟩ := cellLoop_ok _ 0 hr hp h
  have hall : ∀ p ∈ ps, ∃ i, Piece env r par.drift (c.vol * wm) c icell i (st.ctr + i) p ∧ ps[i]? = some p := by
    intro p hmem
    obtain ⟨i, hi, rfl⟩ := List.getElem_of_mem hmem
    have := hps i hi
    rw [Nat.zero_add] at this
    exact ⟨i, this, by simp [hi]⟩
  have hw : ∀ p ∈ ps, p.weight = c.vol * wm := fun p hm => (hall p hm).choose_spec.1.weight
  refine ⟨ps, g, ⟨hl, by rw [sum_replicate_mem hw, hl], fun p hm q hq => by rw [hw p hm, hw q hq],
    fun p hm => (hall p hm).choose_spec.1.label, fun p hm => (hall p hm).choose_spec.1.start,
    fun p hm => (hall p hm).choose_spec.1.fresh,
    fun p hm => ⟨(hall p hm).choose_spec.1.padded.1, (hall p hm).choose_spec.1.u.1⟩,
    fun p hm => (hall p hm).choose_spec.1.u.2,
    fun p hm => (hall p hm).choose_spec.1.padded.2, ?_, ?_⟩⟩
  · intro p hp0
    cases ps with
    | nil => simp at hp0
    | cons q qs =>
      simp only [List.head?_cons, Option.some.injEq] at hp0
      subst hp0
      exact (hps 0 (by simp)).first rfl
  · intro p hm
    cases ps with
    | nil => simp at hm
    | cons q qs =>
      obtain ⟨i, hi, rfl⟩ := List.getElem_of_mem hm
      simp only [List.tail_cons] at hi ⊢
      have := (hps (i + 1) (by simp; omega)).inside (by omega)
      simpa using this

theorem regionLoop_ok {env : Env K γ φ δ} {step time : Arg K} {r : Region K} {par : Params K} {wm : K}
    {g : Nat} (cs : List (SrcCell K)) (k : Nat) (hg : ∀ c ∈ cs, c.mid.length = g)
    {st st' : St K γ δ} (hr : Reachable st.store) (hp : Padded env.pDim g st.pc)
    (h : (cs.zipIdx k).foldlM (createCell env step time r par wm) st = .ok st') :
    ∃ blocks : List (List (Rec K)), Grown env.pDim g st st' blocks.flatten ∧
      List.Forall₂ (fun (ci : SrcCell K × Nat) ps =>
        IsFill env.nrm env.pDim r par (par.perCell * (ci.1.vol * wm)) ci.1 ci.2 ps) (cs.zipIdx k) blocks := by
  induction cs generalizing k st with
  | nil =>
    simp only [List.zipIdx_nil, List.foldlM_nil, pure, Except.pure, Except.ok.injEq] at h
    subst h
    exact ⟨[], Grown.refl hr hp, List.Forall₂.nil⟩
  | cons c cs ih =>
    rw [List.zipIdx_cons, List.foldlM_cons] at h
    simp only [bind, Except.bind] at h
    split at h
    · cases h
    rename_i st1 h1
    have hcg := hg c List.mem_cons_self
    obtain ⟨ps, g1, f1⟩ := createCell_ok hr (by rw [hcg]; exact hp) h1
    rw [hcg] at g1
    obtain ⟨bs, g2, f2⟩ := ih (k + 1) (fun c' hc' => hg c' (List.mem_cons_of_mem _ hc')) g1.reach
      g1.padded h
    refine ⟨ps :: bs, by simpa using g1.trans g2, ?_⟩
    rw [List.zipIdx_cons]
    exact List.Forall₂.cons f1 f2

theorem padded_zero (pDim g : Nat) : Padded pDim g (List.replicate pDim (0 : K)) := by
  refine ⟨by simp, by simp⟩

theorem createMaxwellian_ok [DecidableEq K] {env : Env K γ φ δ} {step time : Arg K} {r : Region K}
    {par : Params K} {g : Nat} (hg : ∀ c ∈ r.cells, c.mid.length = g) {st st' : St K γ δ}
    (hr : Reachable st.store) (h : createMaxwellian env step time r par st = .ok st') :
    par.perCell ≠ 0 ∧ ∃ (wm : K) (blocks : List (List (Rec K))), weightMult env par = .ok wm ∧
      Grown env.pDim g { st with pc := List.replicate env.pDim 0 } st' blocks.flatten ∧
      List.Forall₂ (fun (ci : SrcCell K × Nat) ps =>
        IsFill env.nrm env.pDim r par (par.perCell * (ci.1.vol * wm)) ci.1 ci.2 ps) r.cells.zipIdx blocks := by
  unfold createMaxwellian at h
  simp only [bind, Except.bind] at h
  split at h
  · cases h
  rename_i wm hwm
  refine ⟨?_, wm, ?_⟩
  · intro h0
    unfold weightMult at hwm
    rw [if_pos h0] at hwm
    cases hwm
  · obtain ⟨bs, a, b⟩ := regionLoop_ok r.cells 0 hg
      (st := { st with pc := List.replicate env.pDim 0 }) hr (padded_zero _ _) h
    exact ⟨bs, hwm, a, b⟩

end Sources
end Dt
