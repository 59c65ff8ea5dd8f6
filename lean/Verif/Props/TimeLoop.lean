import Verif.Lemmas.TimeLoop
import Verif.Props.Field

/-!
# Properties of a whole simulation (C68 - C72)
-/

set_option linter.unusedSectionVars false

namespace Dt
open SAP (Reachable)
open TimeLoop
open Spec (LState Stores Pop Ideal Fault lastOf dueStates filedStates wroteLast isDue)
variable {K V α σ φ : Type} [Field K] [LinearOrder K]

/-! ### C68 -/

/-- What can be seen after a run that went through the states `i0`, `is`: the containers, the
particle file, the histories, the potential file and the cell-density file. -/
structure Outcome (cfg : Cfg K V α σ φ) (d : Nat → Nat) (C : Nat) (init : Bool) (b : List K)
    (st0 st : State K V α σ φ) (i0 : Ideal K V α σ) (is : List (Ideal K V α σ)) : Prop where
  count : st.count = (lastOf i0 is).count
  time : st.time = (lastOf i0 is).time
  side : st.side = (lastOf i0 is).side
  particles : List.Forall₂ (fun sp p => sp.name = p.name ∧ Stores sp.sap p.st.items) st.sps
    (lastOf i0 is).pops
  phi : st.solver.phi = (lastOf i0 is).phi
  noFile : st0.writer = none → st.writer = none
  file : st0.writer.isSome = true → ∃ w, st.writer = some w ∧
    List.Forall₂ (GroupOf cfg.attrs) ((filedStates cfg.partEvery init i0 is).map
      (fun i => ⟨i.count, i.time, i.filed⟩)) w.file.groups
  noHist : st0.hist = none → st.hist = none
  hist : st0.hist.isSome = true → ∃ h, st.hist = some h ∧ h.rows = (i0 :: is).map
    (fun i => rowOf cfg.A.weight cfg.vel cfg.quantities (i.count, i.time, i.massed))
  phiLog : st.phiLog = (if cfg.fieldEvery.isSome then
      (i0.time, cfg.solve b) :: (if init then [(i0.time, i0.phi)] else []) else []) ++
    (dueStates cfg.fieldEvery is).map (fun i => (i.time, i.phi))
  cellLog : List.Forall₂ (Spec.DensityOf cfg d C)
    ((dueStates cfg.cellEvery is).flatMap (fun i => i.pops.map (fun p => (i.time, p)))) st.cellLog

theorem run_agree {cfg : Cfg K V α σ φ} {onMesh : α → Bool} {d : Nat → Nat} {sl D C : Nat}
    (hc : GoodCfg cfg) (hm : GoodMesh cfg onMesh d D C) {z : Species.HRow K} (n : Nat)
    (init : Option (List (String × List α))) {st : State K V α σ φ} {i : Ideal K V α σ} {b : List K}
    (h : Fresh sl D C n z st i b) (hnone : st.writer = none → cfg.partEvery = none) :
    Agree (fun r st' => r.2.length = n ∧ r.1.count = i.count ∧
        Final cfg sl D C d z st' (lastOf r.1 r.2)
          (st.writer.map (fun _ => (filedStates cfg.partEvery init.isSome r.1 r.2).map callOf))
          (wroteLast cfg.partEvery init.isSome r.1 r.2)
          (st.hist.map (fun _ => (r.1 :: r.2).map (rowI cfg)))
          (firstPhis cfg init.isSome b r.1 ++ phisOf (dueStates cfg.fieldEvery r.2))
          (cellsOf (dueStates cfg.cellEvery r.2)))
      (Ideal.run cfg sl D onMesh init b n i) (run cfg init n st) := by
  have h1 := setUp_agree hc hm init h
  unfold Ideal.run run
  cases hs : i.start cfg sl D onMesh init b with
  | error f =>
    rw [hs] at h1
    cases f with
    | raises e => simp only [Agree] at h1 ⊢; rw [h1]; rfl
    | allLost => trivial
    | offMesh => trivial
  | ok i0 =>
    rw [hs] at h1
    obtain ⟨st1, e1, hr1, hc1, hw1, last, hl1, hle1, hiff1⟩ := h1
    simp only [e1, bind, Except.bind]
    have h2 := steps_agree hc hm n hr1 hl1 (by omega) (by
      intro hn
      apply hnone
      cases hw : st.writer with
      | none => rfl
      | some w => rw [hw] at hn; simp at hn)
    cases hss : Ideal.steps cfg sl D onMesh n i0 with
    | error f =>
      rw [hss] at h2
      cases f with
      | raises e => simp only [Agree] at h2 ⊢; rw [h2]
      | allLost => trivial
      | offMesh => trivial
    | ok is =>
      rw [hss] at h2
      obtain ⟨st2, e2, hr2, hlen, last', hl2, hle2, hnil, hne⟩ := h2
      rw [e2]
      simp only
      obtain ⟨st3, e3, hf⟩ := finish_ok hc hr2 hl2
      refine ⟨st3, e3, hlen, hc1, ?_⟩
      simp only
      -- whether the last state had been written
      have hwl : st.writer.isSome = true →
          (last' = (lastOf i0 is).count ↔ wroteLast cfg.partEvery init.isSome i0 is = true) := by
        intro hsome
        by_cases hi : is = []
        · subst hi
          rw [hnil rfl]
          simp only [lastOf, List.getLast?_nil, Option.getD_none, wroteLast, List.isEmpty_nil, if_true]
          rw [hc1]
          exact hiff1 hsome
        · rw [hne hi, wroteLast]
          simp [hi]
      have hcells : ([] : List (K × Pop K V α)) ++ cellsOf (dueStates cfg.cellEvery is) =
          cellsOf (dueStates cfg.cellEvery is) := rfl
      have hrows : (st.hist.map (fun _ => [rowI cfg i0])).map (· ++ is.map (rowI cfg)) =
          st.hist.map (fun _ => (i0 :: is).map (rowI cfg)) := by
        cases st.hist <;> simp
      rw [hrows, hcells] at hf
      refine ⟨hf.count, hf.time, hf.side, hf.phi, hf.sps, ?_, hf.hist, hf.phiLog, hf.cellLog⟩
      have hfile := hf.file
      cases hw : st.writer with
      | none => rw [hw] at hfile; exact hfile
      | some w =>
        rw [hw] at hfile hwl
        simp only [Option.map_some] at hfile ⊢
        obtain ⟨w3, e4, ho, hg⟩ := hfile
        have hwl := hwl rfl
        refine ⟨w3, e4, ?_, ?_⟩
        · rw [ho]
          rw [Bool.eq_iff_iff]
          simpa using hwl
        · have : (if init.isSome = true then [callOf i0] else []) ++
              (dueStates cfg.partEvery is).map callOf ++
                (if last' = (lastOf i0 is).count then [] else [callOf (lastOf i0 is)]) =
              (filedStates cfg.partEvery init.isSome i0 is).map callOf := by
            unfold filedStates
            rw [List.map_append, List.map_append]
            congr 1
            · congr 1
              split <;> rfl
            · by_cases hwl2 : wroteLast cfg.partEvery init.isSome i0 is = true
              · rw [if_pos (hwl.2 hwl2), if_pos hwl2]; rfl
              · rw [if_neg (fun hcc => hwl2 (hwl.1 hcc)), if_neg hwl2]; rfl
          rw [← this]
          exact hg

/-- C68.  A whole run - initialization, `n` steps, end - does what the simulation on plain lists of
particles does.  If the latter goes through the states `i0`, `is`, the program ends normally; the
containers hold the final populations; the particle file has one group for the initial state (if there
are initial particles), one for each due step and one for the end (if it is not there already), each
with the particles of that state; the histories have one row per state; the potential and cell-density
files have the due entries, and each potential is the solution for the charge of the particles of that
step.  If it raises, the program raises the same exception. -/
theorem C68_run {cfg : Cfg K V α σ φ} {onMesh : α → Bool} {d : Nat → Nat} {sl D C : Nat}
    (hc : GoodCfg cfg) (hm : GoodMesh cfg onMesh d D C) {z : Species.HRow K} (n : Nat)
    (init : Option (List (String × List α))) {st : State K V α σ φ} {i : Ideal K V α σ} {b : List K}
    (h : Fresh sl D C n z st i b) (hnone : st.writer = none → cfg.partEvery = none) :
    match Ideal.run cfg sl D onMesh init b n i with
    | .ok (i0, is) => is.length = n ∧
        ∃ st', run cfg init n st = .ok st' ∧ Outcome cfg d C init.isSome b st st' i0 is
    | .error (.raises e) => run cfg init n st = .error e
    | .error _ => True := by
  have key := run_agree hc hm n init h hnone
  cases hr : Ideal.run cfg sl D onMesh init b n i with
  | error f =>
    rw [hr] at key
    cases f with
    | raises e => exact key
    | allLost => trivial
    | offMesh => trivial
  | ok r =>
    obtain ⟨i0, is⟩ := r
    rw [hr] at key
    obtain ⟨st', e, hlen, _, hf⟩ := key
    refine ⟨hlen, st', e, ⟨hf.count, hf.time, hf.side, ?_, hf.phi, ?_, ?_, ?_, ?_, hf.phiLog, hf.cellLog⟩⟩
    · exact hf.sps.imp (fun sp p k => by
        obtain ⟨bb, k⟩ := k
        exact ⟨k.name, k.holds.stores⟩)
    · intro hw
      have := hf.file
      rw [hw] at this
      exact this
    · intro hw
      obtain ⟨w, hw⟩ := Option.isSome_iff_exists.1 hw
      have := hf.file
      rw [hw] at this
      obtain ⟨w', e1, _, e2⟩ := this
      exact ⟨w', e1, e2⟩
    · intro hh
      have := hf.hist
      rw [hh] at this
      exact this
    · intro hh
      obtain ⟨hist, hh⟩ := Option.isSome_iff_exists.1 hh
      have := hf.hist
      rw [hh] at this
      have this : st'.hist = some _ := this
      refine ⟨_, this, ?_⟩
      simp [rowI]

/-! ### C69 -/

/-- C69.  After a run the particle file is closed exactly if the last state had not been written
before: if the interval divides the number of the last step (or if there are no steps but initial
particles), the final call finds the step already written and returns without closing the file. -/
theorem C69_file_closed_partial {cfg : Cfg K V α σ φ} {onMesh : α → Bool} {d : Nat → Nat} {sl D C : Nat}
    (hc : GoodCfg cfg) (hm : GoodMesh cfg onMesh d D C) {z : Species.HRow K} (n : Nat)
    (init : Option (List (String × List α))) {st : State K V α σ φ} {i : Ideal K V α σ} {b : List K}
    (h : Fresh sl D C n z st i b) (hnone : st.writer = none → cfg.partEvery = none)
    (hw : st.writer.isSome = true) {r : Ideal K V α σ × List (Ideal K V α σ)}
    (hr : Ideal.run cfg sl D onMesh init b n i = .ok r) :
    ∃ st' w, run cfg init n st = .ok st' ∧ st'.writer = some w ∧
      w.file.isOpen = (if n = 0 then init.isSome else isDue cfg.partEvery (i.count + n)) := by
  have key := run_agree hc hm n init h hnone
  have hcount : ∀ (n : Nat) (j : Ideal K V α σ) (js : List (Ideal K V α σ)),
      Ideal.steps cfg sl D onMesh n j = .ok js → (lastOf j js).count = j.count + n := by
    intro n
    induction n with
    | zero =>
      intro j js hj
      simp only [Ideal.steps, Except.ok.injEq] at hj
      subst hj
      simp [lastOf]
    | succ n ih =>
      intro j js hj
      simp only [Ideal.steps] at hj
      split at hj
      · cases hj
      · rename_i j' hj'
        split at hj
        · cases hj
        · rename_i js' hjs'
          cases hj
          rw [lastOf_cons, ih _ _ hjs', step_count hj']
          push_cast; ring
  have hsteps : Ideal.steps cfg sl D onMesh n r.1 = .ok r.2 := by
    unfold Ideal.run at hr
    split at hr
    · cases hr
    · split at hr
      · cases hr
      · rename_i hss
        cases hr
        exact hss
  rw [hr] at key
  obtain ⟨st', e, hlen, hc1, hf⟩ := key
  obtain ⟨w, hw⟩ := Option.isSome_iff_exists.1 hw
  have hfile := hf.file
  rw [hw] at hfile
  obtain ⟨w', e1, e2, _⟩ := hfile
  refine ⟨st', w', e, e1, ?_⟩
  rw [e2, wroteLast, hcount _ _ _ hsteps, hc1]
  by_cases h0 : n = 0
  · subst h0
    rw [List.length_eq_zero_iff] at hlen
    simp [hlen]
  · have : r.2 ≠ [] := fun hcc => h0 (by rw [hcc] at hlen; simpa using hlen.symm)
    simp [h0, this]

/-- Appending one by one raises exactly if the species is marked and one of the new particles would
open a new segment. -/
theorem appendAll_exact (sl : Nat) (st : LState α) (xs : List α) :
    st.appendAll sl xs =
      if st.stale = true ∧ ∃ k < xs.length, 0 < st.items.length + k ∧ (st.items.length + k) % sl = 0 then
        .error (.raises .assertion)
      else .ok ⟨st.items ++ xs, st.stale⟩ := by
  induction xs generalizing st with
  | nil => simp [LState.appendAll]
  | cons x xs ih =>
    rw [LState.appendAll]
    by_cases h : st.stale = true ∧ st.items ≠ [] ∧ st.items.length % sl = 0
    · rw [if_pos h, if_pos]
      refine ⟨h.1, 0, by simp, ?_, by simpa using h.2.2⟩
      have := List.length_pos_iff.2 h.2.1
      omega
    · rw [if_neg h, ih]
      have : (st.stale = true ∧ ∃ k < xs.length, 0 < (st.items ++ [x]).length + k ∧
            ((st.items ++ [x]).length + k) % sl = 0) ↔
          (st.stale = true ∧ ∃ k < (x :: xs).length, 0 < st.items.length + k ∧
            (st.items.length + k) % sl = 0) := by
        constructor
        · rintro ⟨hs, k, hk, _, hk2⟩
          refine ⟨hs, k + 1, by simpa using hk, by omega, ?_⟩
          rw [← hk2]
          simp only [List.length_append, List.length_singleton]
          congr 1
          omega
        · rintro ⟨hs, k, hk, hk1, hk2⟩
          cases k with
          | zero =>
            exact absurd ⟨hs, by
              intro hcc
              rw [hcc] at hk1
              simp at hk1, by simpa using hk2⟩ h
          | succ k =>
            refine ⟨hs, k, by simpa using hk, by simp, ?_⟩
            rw [← hk2]
            simp only [List.length_append, List.length_singleton]
            congr 1
            omega
      simp only [this, List.append_assoc, List.singleton_append]

/-- What the sources do, for one species at its place in the list: the new population. -/
theorem appendTo_at {sl : Nat} {name : String} {xs : List α} {ps ps' : List (Pop K V α)}
    (hn : (ps.map (·.name)).Nodup) (h : Spec.appendTo sl name xs ps = .ok ps') :
    List.Forall₂ (fun p p' => p'.name = p.name ∧ p'.charge = p.charge ∧ p'.mass = p.mass ∧
      p'.index = p.index ∧ p'.st.items = p.st.items ++ (if name = p.name then xs else [])) ps ps' := by
  induction ps generalizing ps' with
  | nil => simp [Spec.appendTo] at h
  | cons p ps ih =>
    simp only [Spec.appendTo] at h
    split at h
    · rename_i hp
      rw [appendAll_exact] at h
      split at h
      · cases h
      · rename_i st hst
        cases h
        split at hst
        · cases hst
        · cases hst
          refine .cons ⟨rfl, rfl, rfl, rfl, by simp [hp]⟩ ?_
          simp only [List.map_cons, List.nodup_cons, List.mem_map, not_exists, not_and] at hn
          have hne : ∀ q ∈ ps, name ≠ q.name := fun q hq hcc => hn.1 q hq (by rw [hp, hcc])
          rw [List.forall₂_same]
          intro q hq
          simp [hne q hq]
    · rename_i hp
      split at h
      · cases h
      · rename_i ps2 hps
        cases h
        simp only [List.map_cons, List.nodup_cons] at hn
        exact .cons ⟨rfl, rfl, rfl, rfl, by simp [Ne.symm hp]⟩ (ih hn.2 hps)

theorem forall₂_names {R : Pop K V α → Pop K V α → Prop} {ps ps' : List (Pop K V α)}
    (h : List.Forall₂ R ps ps') (hR : ∀ p p', R p p' → p'.name = p.name) :
    ps'.map (·.name) = ps.map (·.name) := by
  induction h with
  | nil => rfl
  | cons h _ ih => simp [hR _ _ h, ih]

theorem forall₂_trans' {A : Type} {R S T : A → A → Prop} (h : ∀ a b c, R a b → S b c → T a c)
    {as bs cs : List A} (h1 : List.Forall₂ R as bs) (h2 : List.Forall₂ S bs cs) : List.Forall₂ T as cs := by
  induction h1 generalizing cs with
  | nil => cases h2; exact .nil
  | cons h1 _ ih => cases h2 with | cons h' t => exact .cons (h _ _ _ h1 h') (ih t)

theorem createAll_at {sl : Nat} {count : Int} {time : K} {ss : List (Src K α σ)}
    {ps ps' : List (Pop K V α)} {side side' : σ} (hn : (ps.map (·.name)).Nodup)
    (h : Spec.createAll sl count time ss ps side = .ok (ps', side')) :
    List.Forall₂ (fun p p' => p'.name = p.name ∧ p'.charge = p.charge ∧ p'.mass = p.mass ∧
      p'.index = p.index ∧ p'.st.items = p.st.items ++ Spec.created p.name count time ss side) ps ps' := by
  induction ss generalizing ps side with
  | nil =>
    simp only [Spec.createAll, Except.ok.injEq, Prod.mk.injEq] at h
    rw [← h.1, List.forall₂_same]
    simp [Spec.created]
  | cons s ss ih =>
    simp only [Spec.createAll] at h
    simp only [Spec.created]
    split at h
    · cases h
    · split at h
      · rename_i hd
        split at h
        · cases h
        · rename_i side2 xs hmk
          simp only [if_pos hd]
          split at h
          · cases h
          · rename_i ps2 hps
            have h1 := appendTo_at hn hps
            have h2 := ih (by rw [forall₂_names h1 (fun _ _ k => k.1)]; exact hn) h
            refine forall₂_trans' ?_ h1 h2
            rintro a b c ⟨n1, c1, m1, i1, e1⟩ ⟨n2, c2, m2, i2, e2⟩
            refine ⟨n2.trans n1, c2.trans c1, m2.trans m1, i2.trans i1, ?_⟩
            rw [e2, e1, n1, List.append_assoc]
      · rename_i hd
        simp only [if_neg hd]
        exact ih hn h

/-- A pass keeps a selection of the particles, in order, up to what the mover does to a record. -/
theorem pass_keys {κ : Type} (key : α → κ) {adv : Adv σ α}
    (hk : ∀ st i o b p st' p' f, adv st i o b p = .ok (st', p', f) → key p' = key p)
    {xs ys : List α} : ∀ {st st' : σ} {i o : Nat}, Spec.pass adv st i o xs = .ok (st', ys) →
      (ys.map key).Sublist (xs.map key) := by
  induction xs generalizing ys with
  | nil =>
    intro st st' i o h
    simp only [Spec.pass, Except.ok.injEq, Prod.mk.injEq] at h
    rw [← h.2]
  | cons x xs ih =>
    intro st st' i o h
    simp only [Spec.pass] at h
    split at h
    · cases h
    · rename_i s1 p1 he
      split at h
      · cases h
      · rename_i s2 ys2 hp
        cases h
        simp only [List.map_cons, hk _ _ _ _ _ _ _ _ he]
        exact (ih hp).cons_cons _
    · exact (ih h).cons _

theorem moveAll_at {sl : Nat} {mv : String → Adv σ α} {κ : Type} (key : α → κ)
    (hk : ∀ sn st i o b p st' p' f, mv sn st i o b p = .ok (st', p', f) → key p' = key p)
    {ps ps' : List (Pop K V α)} {side side' : σ} (h : Spec.moveAll sl mv ps side = .ok (ps', side')) :
    List.Forall₂ (fun p p' => p'.name = p.name ∧ p'.charge = p.charge ∧ p'.mass = p.mass ∧
      p'.index = p.index ∧ (p'.st.items.map key).Sublist (p.st.items.map key) ∧
      (p.charge = 0 → p'.st.items = p.st.items)) ps ps' := by
  induction ps generalizing ps' side with
  | nil =>
    simp only [Spec.moveAll, Except.ok.injEq, Prod.mk.injEq] at h
    rw [← h.1]; exact .nil
  | cons p ps ih =>
    simp only [Spec.moveAll] at h
    split at h
    · cases h
    · rename_i p' side1 hp
      split at h
      · cases h
      · rename_i ps2 side2 hps
        cases h
        refine .cons ?_ (ih hps)
        unfold Spec.movePop at hp
        split at hp
        · cases hp
          exact ⟨rfl, rfl, rfl, rfl, List.Sublist.refl _, fun _ => rfl⟩
        · rename_i hne
          split at hp
          · cases hp
          · cases hp
          · rename_i side3 y ys hpass
            cases hp
            exact ⟨rfl, rfl, rfl, rfl, pass_keys key (hk p.name) hpass,
              fun hcc => absurd (Or.inl hcc) hne⟩

/-! ### C71 -/

/-- C71 (one step).  The species and their constants stay; no particle appears that was not there
before or created by a due source, none is stored twice, the order is kept; neutral species only get
new particles.  `key` is any attribute that the movers do not change (weight, unique ID). -/
theorem C71_step {cfg : Cfg K V α σ φ} {sl D : Nat} {onMesh : α → Bool} {κ : Type} (key : α → κ)
    (hk : ∀ sn f c t st i o b p st' p' fl, cfg.move sn f c t st i o b p = .ok (st', p', fl) →
      key p' = key p)
    {i i' : Ideal K V α σ} (hn : (i.pops.map (·.name)).Nodup)
    (h : i.step cfg sl D onMesh = .ok i') :
    List.Forall₂ (fun p p' => p'.name = p.name ∧ p'.charge = p.charge ∧ p'.mass = p.mass ∧
      p'.index = p.index ∧
      (p'.st.items.map key).Sublist (p.st.items.map key ++ (i.made cfg sl p.name).map key) ∧
      (p.charge = 0 → p'.st.items = p.st.items ++ i.made cfg sl p.name) ∧
      (i.made cfg sl p.name).length ≤ p'.st.items.length) i.pops i'.pops := by
  simp only [Ideal.step] at h
  unfold Ideal.made
  split at h
  · cases h
  · rename_i ps side hmv
    split at h
    · cases h
    · rename_i ps2 side2 hcr
      have h1 := moveAll_at key (fun sn => hk sn _ _ _) hmv
      have h2 := createAll_at (by rw [forall₂_names h1 (fun _ _ k => k.1)]; exact hn) hcr
      unfold Spec.settle at h
      split at h
      · cases h
        simp only
        have h3 : List.Forall₂ (fun p p' => p' = Spec.looked p) ps2 (ps2.map Spec.looked) := by
          have : ∀ l : List (Pop K V α),
              List.Forall₂ (fun p p' => p' = Spec.looked p) l (l.map Spec.looked) := by
            intro l
            induction l with
            | nil => exact .nil
            | cons a as ih => exact .cons rfl ih
          exact this ps2
        refine forall₂_trans' ?_ (forall₂_trans' (T := fun p p' => p'.name = p.name ∧
          p'.charge = p.charge ∧ p'.mass = p.mass ∧ p'.index = p.index ∧
          (p'.st.items.map key).Sublist (p.st.items.map key ++ (Spec.created p.name (i.count + 1)
            (i.time + cfg.dt) cfg.sources side).map key) ∧
          (p.charge = 0 → p'.st.items = p.st.items ++ Spec.created p.name (i.count + 1)
            (i.time + cfg.dt) cfg.sources side) ∧
          (Spec.created p.name (i.count + 1) (i.time + cfg.dt) cfg.sources side).length ≤
            p'.st.items.length) ?_ h1 h2) h3
        · rintro a b c ⟨e1, e2, e3, e4, e5, e6, e7⟩ rfl
          exact ⟨e1, e2, e3, e4, e5, e6, e7⟩
        · rintro a b c ⟨n1, c1, m1, i1, s1, z1⟩ ⟨n2, c2, m2, i2, e2⟩
          refine ⟨n2.trans n1, c2.trans c1, m2.trans m1, i2.trans i1, ?_, ?_, ?_⟩
          · rw [e2, n1, List.map_append]
            exact s1.append_right _
          · intro hz
            rw [e2, n1, z1 hz]
          · rw [e2, n1, List.length_append]
            omega
      · cases h

/-- The states before the last one. -/
def before (i0 : Ideal K V α σ) (is : List (Ideal K V α σ)) : List (Ideal K V α σ) :=
  (i0 :: is).dropLast

theorem steps_keys {cfg : Cfg K V α σ φ} {sl D : Nat} {onMesh : α → Bool} {κ : Type} (key : α → κ)
    (hk : ∀ sn f c t st i o b p st' p' fl, cfg.move sn f c t st i o b p = .ok (st', p', fl) →
      key p' = key p) (n : Nat) {i0 : Ideal K V α σ} {is : List (Ideal K V α σ)}
    (hn : (i0.pops.map (·.name)).Nodup) (h : Ideal.steps cfg sl D onMesh n i0 = .ok is) :
    List.Forall₂ (fun p p' => p'.name = p.name ∧ p'.charge = p.charge ∧
      (p'.st.items.map key).Sublist (p.st.items.map key ++
        (before i0 is).flatMap (fun i => (i.made cfg sl p.name).map key)) ∧
      (p.charge = 0 → p'.st.items = p.st.items ++ (before i0 is).flatMap (fun i => i.made cfg sl p.name)))
      i0.pops (lastOf i0 is).pops := by
  induction n generalizing i0 is with
  | zero =>
    simp only [Ideal.steps, Except.ok.injEq] at h
    subst h
    simp [lastOf, before, List.forall₂_same]
  | succ n ih =>
    simp only [Ideal.steps] at h
    split at h
    · cases h
    · rename_i i1 h1
      split at h
      · cases h
      · rename_i is1 h2
        cases h
        have s1 := C71_step key hk hn h1
        have s2 := ih (by rw [forall₂_names s1 (fun _ _ k => k.1)]; exact hn) h2
        rw [lastOf_cons]
        refine forall₂_trans' ?_ s1 s2
        rintro a b c ⟨n1, c1, _, _, k1, z1, _⟩ ⟨n2, c2, k2, z2⟩
        have hb : before i0 (i1 :: is1) = i0 :: before i1 is1 := by simp [before]
        refine ⟨n2.trans n1, c2.trans c1, ?_, ?_⟩
        · rw [hb, List.flatMap_cons, ← List.append_assoc]
          rw [n1] at k2
          exact k2.trans (k1.append_right _)
        · intro hz
          rw [hb, List.flatMap_cons, z2 (by rw [c1, hz]), z1 hz, n1, List.append_assoc]

/-- The initial particles of a species, in order. -/
def given (init : Option (List (String × List α))) (name : String) : List α :=
  (init.getD []).flatMap (fun g => if g.1 = name then g.2 else [])

theorem appendGroups_at {sl : Nat} {gs : List (String × List α)} {ps ps' : List (Pop K V α)}
    (hn : (ps.map (·.name)).Nodup) (h : Spec.appendGroups sl gs ps = .ok ps') :
    List.Forall₂ (fun p p' => p'.name = p.name ∧ p'.charge = p.charge ∧
      p'.st.items = p.st.items ++ given (some gs) p.name) ps ps' := by
  induction gs generalizing ps with
  | nil =>
    simp only [Spec.appendGroups, Except.ok.injEq] at h
    rw [← h, List.forall₂_same]
    simp [given]
  | cons g gs ih =>
    simp only [Spec.appendGroups] at h
    split at h
    · cases h
    · rename_i ps1 h1
      have a1 := appendTo_at hn h1
      have a2 := ih (by rw [forall₂_names a1 (fun _ _ k => k.1)]; exact hn) h
      refine forall₂_trans' ?_ a1 a2
      rintro a b c ⟨n1, c1, _, _, e1⟩ ⟨n2, c2, e2⟩
      refine ⟨n2.trans n1, c2.trans c1, ?_⟩
      rw [e2, e1, n1]
      simp [given]

theorem start_at {cfg : Cfg K V α σ φ} {sl D : Nat} {onMesh : α → Bool}
    {init : Option (List (String × List α))} {b : List K} {i i0 : Ideal K V α σ}
    (hn : (i.pops.map (·.name)).Nodup) (h : i.start cfg sl D onMesh init b = .ok i0) :
    List.Forall₂ (fun p p' => p'.name = p.name ∧ p'.charge = p.charge ∧
      p'.st.items = p.st.items ++ given init p.name) i.pops i0.pops := by
  cases init with
  | none =>
    simp only [Ideal.start, Except.ok.injEq] at h
    rw [← h, List.forall₂_same]
    simp [given]
  | some gs =>
    simp only [Ideal.start] at h
    split at h
    · cases h
    · rename_i ps hps
      have a1 := appendGroups_at hn hps
      unfold Spec.settle at h
      split at h
      · cases h
        simp only [List.forall₂_map_right_iff]
        exact a1.imp (fun a b k => k)
      · cases h

/-- C71.  What a container holds after a run: a selection, in order, of the initial particles of the
species followed by the particles the sources created for it, step by step - every one at most once
and nothing else; for a neutral species all of them, unchanged. -/
theorem C71_particles_accounted_for {cfg : Cfg K V α σ φ} {onMesh : α → Bool} {d : Nat → Nat}
    {sl D C : Nat} (hc : GoodCfg cfg) (hm : GoodMesh cfg onMesh d D C) {z : Species.HRow K} (n : Nat)
    (init : Option (List (String × List α))) {st : State K V α σ φ} {i : Ideal K V α σ} {b : List K}
    (h : Fresh sl D C n z st i b) (hnone : st.writer = none → cfg.partEvery = none)
    (hn : (i.pops.map (·.name)).Nodup) {κ : Type} (key : α → κ)
    (hk : ∀ sn f c t st i o b p st' p' fl, cfg.move sn f c t st i o b p = .ok (st', p', fl) →
      key p' = key p) {i0 : Ideal K V α σ} {is : List (Ideal K V α σ)}
    (hr : Ideal.run cfg sl D onMesh init b n i = .ok (i0, is)) :
    ∃ st', run cfg init n st = .ok st' ∧
      List.Forall₂ (fun (sp sp' : Sp K V α) => sp'.name = sp.name ∧ ∃ xs, Stores sp'.sap xs ∧
        (xs.map key).Sublist ((given init sp.name).map key ++
          (before i0 is).flatMap (fun j => (j.made cfg sl sp.name).map key)) ∧
        (sp.charge = 0 → xs = given init sp.name ++
          (before i0 is).flatMap (fun j => j.made cfg sl sp.name))) st.sps st'.sps := by
  have key1 := C68_run hc hm n init h hnone
  rw [hr] at key1
  obtain ⟨_, st', e, ho⟩ := key1
  refine ⟨st', e, ?_⟩
  have hs : i.start cfg sl D onMesh init b = .ok i0 ∧ Ideal.steps cfg sl D onMesh n i0 = .ok is := by
    unfold Ideal.run at hr
    split at hr
    · cases hr
    · rename_i h1
      split at hr
      · cases hr
      · rename_i h2
        cases hr
        exact ⟨h1, h2⟩
  have s1 := start_at hn hs.1
  have s2 := steps_keys key hk n (by rw [forall₂_names s1 (fun _ _ k => k.1)]; exact hn) hs.2
  have s3 := forall₂_trans' (T := fun p p' => p'.name = p.name ∧
    (p'.st.items.map key).Sublist (p.st.items.map key ++ (given init p.name).map key ++
        (before i0 is).flatMap (fun i => (i.made cfg sl p.name).map key)) ∧
      (p.charge = 0 → p'.st.items = p.st.items ++ given init p.name ++
        (before i0 is).flatMap (fun i => i.made cfg sl p.name))) (by
    rintro a b c ⟨n1, c1, e1⟩ ⟨n2, _, k2, z2⟩
    refine ⟨n2.trans n1, ?_, ?_⟩
    · rw [e1, n1, List.map_append] at k2
      exact k2
    · intro hz
      rw [z2 (by rw [c1, hz]), e1, n1]) s1 s2
  -- glue: container - initial population - final population - container
  have hem := h.empty
  have glue : ∀ {as : List (Sp K V α)} {ps qs : List (Pop K V α)} {bs : List (Sp K V α)},
      (∀ p ∈ ps, p.st = ⟨[], false⟩) → List.Forall₂ (RelSp sl D C) as ps →
      List.Forall₂ (fun p p' => p'.name = p.name ∧
        (p'.st.items.map key).Sublist (p.st.items.map key ++ (given init p.name).map key ++
            (before i0 is).flatMap (fun i => (i.made cfg sl p.name).map key)) ∧
          (p.charge = 0 → p'.st.items = p.st.items ++ given init p.name ++
            (before i0 is).flatMap (fun i => i.made cfg sl p.name))) ps qs →
      List.Forall₂ (fun sp p => sp.name = p.name ∧ Stores sp.sap p.st.items) bs qs →
      List.Forall₂ (fun (sp sp' : Sp K V α) => sp'.name = sp.name ∧ ∃ xs, Stores sp'.sap xs ∧
        (xs.map key).Sublist ((given init sp.name).map key ++
          (before i0 is).flatMap (fun j => (j.made cfg sl sp.name).map key)) ∧
        (sp.charge = 0 → xs = given init sp.name ++
          (before i0 is).flatMap (fun j => j.made cfg sl sp.name))) as bs := by
    intro as ps qs bs hem h1
    induction h1 generalizing qs bs with
    | nil =>
      intro h2 h3
      cases h2
      cases h3
      exact .nil
    | cons hd _ ih =>
      intro h2 h3
      cases h2 with
      | cons k2 t2 =>
        cases h3 with
        | cons k3 t3 =>
          refine .cons ⟨?_, _, k3.2, ?_, ?_⟩ (ih (fun p hp => hem p (List.mem_cons_of_mem _ hp)) t2 t3)
          · rw [k3.1, k2.1, hd.name]
          · have := k2.2.1
            rw [hem _ List.mem_cons_self] at this
            rw [hd.name]
            simpa using this
          · intro hz
            have := k2.2.2 (by rw [← hd.charge, hz])
            rw [hem _ List.mem_cons_self] at this
            rw [hd.name]
            simpa using this
  exact glue hem h.sps s3 ho.particles

/-! ### C72 -/

theorem sum_chargeAt {cfg : Cfg K V α σ φ} {onMesh : α → Bool} {d : Nat → Nat} {D C : Nat}
    (hm : GoodMesh cfg onMesh d D C) (h1 : ∀ p, onMesh p = true → (cfg.SD.basis p).sum = 1)
    {pops : List (Pop K V α)} (hon : pops.all (fun p => p.st.items.all onMesh) = true) :
    ((List.range D).map (Spec.chargeAt cfg pops)).sum = Spec.totalCharge cfg.A.weight pops := by
  unfold Spec.totalCharge
  induction pops with
  | nil =>
    have : Spec.chargeAt cfg ([] : List (Pop K V α)) = fun _ => 0 := by
      funext j
      simp [Spec.chargeAt]
    simp [this]
  | cons p ps ih =>
    simp only [List.all_cons, Bool.and_eq_true] at hon
    have e : (List.range D).map (Spec.chargeAt cfg (p :: ps)) = (List.range D).map (fun j =>
        p.charge * (p.st.items.map (Spec.contrib cfg.A cfg.SD j)).sum + Spec.chargeAt cfg ps j) := by
      apply List.map_congr_left
      intro j _
      simp [Spec.chargeAt]
    rw [e, List.sum_map_add, ih hon.2, List.sum_map_mul_left, List.map_cons, List.sum_cons]
    congr 2
    have hp : ∀ q ∈ p.st.items, onMesh q = true := by simpa using hon.1
    revert hp
    generalize p.st.items = xs
    intro hp
    induction xs with
    | nil => simp
    | cons x xs ihx =>
      have hx := hp x List.mem_cons_self
      simp only [List.map_cons, List.sum_cons]
      rw [List.sum_map_add, ihx (fun q hq => hp q (List.mem_cons_of_mem _ hq))]
      congr 1
      have : (List.range D).map (fun j => Spec.contrib cfg.A cfg.SD j x) =
          (List.range D).map (fun j => cfg.A.weight x * Spec.share (cfg.SD.dofs (cfg.A.cell x))
            (cfg.SD.basis x) j) := rfl
      rw [this, List.sum_map_mul_left, Fld.sum_share (hm.fits x hx).range (hm.fits x hx).len, h1 x hx,
        mul_one]

theorem settle_charge {cfg : Cfg K V α σ φ} {onMesh : α → Bool} {d : Nat → Nat} {D C : Nat}
    (hm : GoodMesh cfg onMesh d D C) (h1 : ∀ p, onMesh p = true → (cfg.SD.basis p).sum = 1)
    {count : Int} {time : K} {pops : List (Pop K V α)} {side : σ} {i : Ideal K V α σ}
    (h : Spec.settle cfg D onMesh count time pops side = .ok i) :
    ∃ v : List K, v.length = D ∧
      v.sum = Spec.totalCharge cfg.A.weight i.pops * cfg.factor.getD 1 ∧ i.phi = cfg.solve (cfg.bc v) := by
  unfold Spec.settle at h
  split at h
  · rename_i hon
    cases h
    refine ⟨(List.range D).map (fun j => Spec.chargeAt cfg pops j * cfg.factor.getD 1), by simp, ?_, rfl⟩
    rw [List.sum_map_mul_right, sum_chargeAt hm h1 hon]
    congr 1
    simp [Spec.totalCharge, Spec.looked, Function.comp_def]
  · cases h

/-- C72.  In every state of a run after the first step (and in the first, if there are initial
particles) the potential is the solution for a right-hand side whose entries before the boundary
conditions add up to the charge of all particles present - nothing is lost, counted twice or left over
from an earlier step. -/
theorem C72_charge_conserved_partial {cfg : Cfg K V α σ φ} {onMesh : α → Bool} {d : Nat → Nat}
    {sl D C : Nat} (hc : GoodCfg cfg) (hm : GoodMesh cfg onMesh d D C) {z : Species.HRow K} (n : Nat)
    (init : Option (List (String × List α))) {st : State K V α σ φ} {i : Ideal K V α σ} {b : List K}
    (h : Fresh sl D C n z st i b) (hnone : st.writer = none → cfg.partEvery = none)
    (h1 : ∀ p, onMesh p = true → (cfg.SD.basis p).sum = 1)
    {i0 : Ideal K V α σ} {is : List (Ideal K V α σ)}
    (hr : Ideal.run cfg sl D onMesh init b n i = .ok (i0, is)) :
    ∃ st', run cfg init n st = .ok st' ∧ Outcome cfg d C init.isSome b st st' i0 is ∧
      ∀ j ∈ (if init.isSome then [i0] else []) ++ is, ∃ v : List K, v.length = D ∧
        v.sum = Spec.totalCharge cfg.A.weight j.pops * cfg.factor.getD 1 ∧
        j.phi = cfg.solve (cfg.bc v) := by
  have key1 := C68_run hc hm n init h hnone
  rw [hr] at key1
  obtain ⟨hlen, st', e, ho⟩ := key1
  refine ⟨st', e, ho, ?_⟩
  have hs : i.start cfg sl D onMesh init b = .ok i0 ∧ Ideal.steps cfg sl D onMesh n i0 = .ok is := by
    unfold Ideal.run at hr
    split at hr
    · cases hr
    · rename_i h1
      split at hr
      · cases hr
      · rename_i h2
        cases hr
        exact ⟨h1, h2⟩
  intro j hj
  rw [List.mem_append] at hj
  rcases hj with hj | hj
  · cases init with
    | none => simp at hj
    | some gs =>
      simp at hj
      subst hj
      have := hs.1
      simp only [Ideal.start] at this
      split at this
      · cases this
      · exact settle_charge hm h1 this
  · have hss := hs.2
    clear hs hr ho e h hlen
    induction n generalizing i0 is with
    | zero =>
      simp only [Ideal.steps, Except.ok.injEq] at hss
      subst hss
      simp at hj
    | succ n ih =>
      simp only [Ideal.steps] at hss
      split at hss
      · cases hss
      · rename_i i1 e1
        split at hss
        · cases hss
        · rename_i is1 e2
          cases hss
          rcases List.mem_cons.1 hj with rfl | hj
          · simp only [Ideal.step] at e1
            split at e1
            · cases e1
            · split at e1
              · cases e1
              · exact settle_charge hm h1 e1
          · exact ih hj e2

/-! ### C70 -/

/-- A run without sources ends early only with an exception of a mover. -/
theorem C70_no_sources_partial {cfg : Cfg K V α σ φ} {sl D : Nat} {onMesh : α → Bool} (hs : cfg.sources = [])
    {i : Ideal K V α σ} {e : Err} (h : i.step cfg sl D onMesh = .error (.raises e)) :
    ∃ p ∈ i.pops, p.charge ≠ 0 ∧ ∃ side, Spec.pass (cfg.move p.name (cfg.fieldOf i.phi) (i.count + 1)
      (i.time + cfg.dt)) side 0 0 p.st.items = .error e := by
  have key : ∀ (mv : String → Adv σ α) (ps : List (Pop K V α)) (side : σ),
      Spec.moveAll sl mv ps side = .error (.raises e) →
      ∃ p ∈ ps, p.charge ≠ 0 ∧ ∃ side, Spec.pass (mv p.name) side 0 0 p.st.items = .error e := by
    intro mv ps
    induction ps with
    | nil => intro side h; cases h
    | cons p ps ih =>
      intro side h
      simp only [Spec.moveAll] at h
      split at h
      · rename_i f hf
        cases h
        unfold Spec.movePop at hf
        split at hf
        · cases hf
        · rename_i hne
          split at hf
          · rename_i e' hp
            cases hf
            exact ⟨p, List.mem_cons_self, fun hcc => hne (Or.inl hcc), side, hp⟩
          · cases hf
          · cases hf
      · split at h
        · rename_i f hf
          cases h
          obtain ⟨q, hq, r⟩ := ih _ hf
          exact ⟨q, List.mem_cons_of_mem _ hq, r⟩
        · cases h
  simp only [Ideal.step] at h
  split at h
  · rename_i f hf
    cases h
    exact key _ _ _ hf
  · rw [hs] at h
    simp only [Spec.createAll] at h
    unfold Spec.settle at h
    split at h <;> cases h

/-- A step of a simulation with one neutral species and one source that acts at every step. -/
theorem step_neutral {cfg : Cfg K V α σ φ} {sl D : Nat} {onMesh : α → Bool} {s : Src K α σ}
    (hs : cfg.sources = [s]) (hint : s.interval = 1) {i : Ideal K V α σ} {p : Pop K V α}
    (hp : i.pops = [p]) (hz : p.charge = 0) (hname : s.species = p.name)
    (hon : p.st.items.all onMesh = true) {side' : σ} {xs : List α}
    (hmk : s.make (i.count + 1) (i.time + cfg.dt) i.side = .ok (side', xs))
    (hxs : ∀ x ∈ xs, onMesh x = true) :
    i.step cfg sl D onMesh =
      if p.st.stale = true ∧ ∃ k < xs.length, 0 < p.st.items.length + k ∧
          (p.st.items.length + k) % sl = 0 then .error (.raises .assertion)
      else .ok ⟨i.count + 1, i.time + cfg.dt,
        [{ p with st := ⟨p.st.items ++ xs, decide (p.st.items ++ xs ≠ [])⟩ }], side',
        Spec.potential cfg D [{ p with st := ⟨p.st.items ++ xs, p.st.stale⟩ }]⟩ := by
  have hdue : (i.count + 1).fmod 1 = 0 := by simp
  have hmv : Spec.moveAll sl (fun sn => cfg.move sn (cfg.fieldOf i.phi) (i.count + 1) (i.time + cfg.dt))
      [p] i.side = .ok ([p], i.side) := by
    simp [Spec.moveAll, Spec.movePop, hz]
  simp only [Ideal.step, hp, hmv]
  have hcr : Spec.createAll sl (i.count + 1) (i.time + cfg.dt) cfg.sources [p] i.side =
      if p.st.stale = true ∧ ∃ k < xs.length, 0 < p.st.items.length + k ∧
          (p.st.items.length + k) % sl = 0 then .error (.raises .assertion)
      else .ok ([{ p with st := ⟨p.st.items ++ xs, p.st.stale⟩ }], side') := by
    simp only [hs, Spec.createAll, hint, one_ne_zero, if_false, hdue, if_true, hmk, Spec.appendTo, hname,
      appendAll_exact]
    by_cases h : p.st.stale = true ∧ ∃ k < xs.length, 0 < p.st.items.length + k ∧
          (p.st.items.length + k) % sl = 0
    · simp only [if_pos h]
    · simp only [if_neg h]
  rw [hcr]
  by_cases h : p.st.stale = true ∧ ∃ k < xs.length, 0 < p.st.items.length + k ∧
          (p.st.items.length + k) % sl = 0
  · simp only [if_pos h]
  · simp only [if_neg h]
    have : ([{ p with st := ⟨p.st.items ++ xs, p.st.stale⟩ }] : List (Pop K V α)).all
        (fun p => p.st.items.all onMesh) = true := by
      simp only [List.all_cons, List.all_append, hon, List.all_nil, Bool.and_true, Bool.true_and]
      simpa using hxs
    simp only [Spec.settle]
    rw [if_pos this]
    rfl

theorem steps_neutral {cfg : Cfg K V α σ φ} {sl D : Nat} (hsl : 0 < sl) {onMesh : α → Bool}
    {s : Src K α σ} (hs : cfg.sources = [s]) (hint : s.interval = 1)
    (hmk : ∀ c t side, ∃ side' xs, s.make c t side = .ok (side', xs) ∧ xs ≠ [] ∧
      ∀ x ∈ xs, onMesh x = true) (n : Nat) {i : Ideal K V α σ} {p : Pop K V α}
    (hp : i.pops = [p]) (hz : p.charge = 0) (hname : s.species = p.name)
    (hon : p.st.items.all onMesh = true) (hst : p.st.stale = true) (hne : p.st.items ≠ [])
    (hn : (sl - p.st.items.length % sl) % sl < n) :
    Ideal.steps cfg sl D onMesh n i = .error (.raises .assertion) := by
  induction n generalizing i p with
  | zero => omega
  | succ n ih =>
    obtain ⟨side', xs, e, hx, hxo⟩ := hmk (i.count + 1) (i.time + cfg.dt) i.side
    simp only [Ideal.steps]
    rw [step_neutral hs hint hp hz hname hon e hxo]
    by_cases hcr : p.st.stale = true ∧ ∃ k < xs.length, 0 < p.st.items.length + k ∧
          (p.st.items.length + k) % sl = 0
    · rw [if_pos hcr]
    · rw [if_neg hcr]
      simp only
      rw [ih (p := { p with st := ⟨p.st.items ++ xs, decide (p.st.items ++ xs ≠ [])⟩ }) rfl hz hname
        (by simp only [List.all_append, hon, Bool.true_and]; simpa using hxo) (by simp [hx]) (by simp [hx])]
      simp only [List.length_append]
      have hlp := List.length_pos_iff.2 hne
      have hxp := List.length_pos_iff.2 hx
      have hno : ∀ k < xs.length, (p.st.items.length + k) % sl ≠ 0 := fun k hk hcc =>
        hcr ⟨hst, k, hk, by omega, hcc⟩
      generalize xs.length = m at *
      generalize p.st.items.length = l at *
      have hr := Nat.mod_lt l hsl
      have h0 := hno 0 hxp
      simp only [Nat.add_zero] at h0
      have hadd : ∀ k, (l + k) % sl = (l % sl + k) % sl := fun k => by simp [Nat.add_mod]
      rw [hadd]
      have hm : l % sl + m ≤ sl := by
        by_contra hcc
        apply hno (sl - l % sl) (by omega)
        rw [hadd, show l % sl + (sl - l % sl) = sl by omega, Nat.mod_self]
      generalize l % sl = r at *
      rw [Nat.mod_eq_of_lt (by omega : sl - r < sl)] at hn
      rcases Nat.lt_or_ge (r + m) sl with hlt | hge
      · rw [Nat.mod_eq_of_lt hlt, Nat.mod_eq_of_lt (by omega)]
        omega
      · rw [show r + m = sl by omega, Nat.mod_self]
        simp
        omega

/-- C70 (what happens instead).  A simulation with a source for a neutral species that creates at
least one particle at every step cannot run for more steps than a segment holds particles: the
program raises AssertionError, for whatever the source creates. -/
theorem C70_neutral_source_raises_partial {cfg : Cfg K V α σ φ} {onMesh : α → Bool} {d : Nat → Nat}
    {sl D C : Nat} (hc : GoodCfg cfg) (hm : GoodMesh cfg onMesh d D C) {z : Species.HRow K} (n : Nat)
    {st : State K V α σ φ} {i : Ideal K V α σ} {b : List K}
    (h : Fresh sl D C n z st i b) (hnone : st.writer = none → cfg.partEvery = none)
    {s : Src K α σ} (hs : cfg.sources = [s]) (hint : s.interval = 1)
    (hmk : ∀ c t side, ∃ side' xs, s.make c t side = .ok (side', xs) ∧ xs ≠ [] ∧
      ∀ x ∈ xs, onMesh x = true) {p : Pop K V α} (hp : i.pops = [p]) (hz : p.charge = 0)
    (hname : s.species = p.name) (hn : sl < n) : run cfg none n st = .error .assertion := by
  have key := C68_run hc hm n none h hnone
  have hem := h.empty p (by rw [hp]; exact List.mem_singleton.2 rfl)
  have hsl : 0 < sl := by
    have := h.sps
    rw [hp] at this
    cases hsps : st.sps with
    | nil => rw [hsps] at this; cases this
    | cons a as =>
      rw [hsps] at this
      cases this with
      | cons k _ => exact k.holds.sl ▸ k.holds.sim.inv.out.pos
  have hrun : Ideal.run cfg sl D onMesh none b n i = .error (.raises .assertion) := by
    obtain ⟨side', xs, e, hx, hxo⟩ := hmk (i.count + 1) (i.time + cfg.dt) i.side
    obtain ⟨m, rfl⟩ : ∃ m, n = m + 1 := ⟨n - 1, by omega⟩
    simp only [Ideal.run, Ideal.start, Ideal.steps]
    rw [step_neutral (i := { i with phi := cfg.solve b }) hs hint hp hz hname
      (by rw [hem]; rfl) e hxo, if_neg (by rw [hem]; simp)]
    simp only
    rw [steps_neutral hsl hs hint hmk m
      (p := { p with st := ⟨p.st.items ++ xs, decide (p.st.items ++ xs ≠ [])⟩ }) rfl hz hname
      (by simp only [hem, List.nil_append]; simpa using hxo) (by simp [hx]) (by simp [hx])]
    have := Nat.mod_lt (sl - (p.st.items ++ xs).length % sl) hsl
    simp only
    omega
  rw [hrun] at key
  exact key

/-! ### A concrete simulation -/

section Demo
open Fld (Dep demoAttrs demoCG demoDG)

/-- Electrons drift to the right, driven also by the potential at the left end, and leave at 2. -/
def loopMove (sn : String) (f : ℚ) (_ : Int) (_ : ℚ) : Adv Nat Dep := fun side _ _ _ p =>
  if sn = "e" then
    let x := p.2.1 + 1 / 4 + f / 100
    .ok (side + 1, (if x < 1 then 0 else 1, x, p.2.2), decide (x < 2))
  else .ok (side, p, true)

/-- One electron at every second step. -/
def loopSource : Src ℚ Dep Nat :=
  ⟨"left", "e", 2, fun c _ side => .ok (side, [((0, 1 / 8, (c : ℚ)) : Dep)])⟩

/-- Electrons and a neutral species; the solver and the boundary conditions are toys. -/
def loopCfg (sources : List (Src ℚ Dep Nat)) : Cfg ℚ ℚ Dep Nat ℚ where
  dt := 1 / 2
  move := loopMove
  sources := sources
  attrs := demoOut
  junk := 0
  partEvery := some 2
  cellEvery := some 3
  fieldEvery := some 1
  quantities := [.count]
  vel := []
  A := demoAttrs
  SD := demoCG
  SC := demoDG
  vol := fun k => (k : ℚ) + 1
  ncell := 2
  bc := fun v => v
  solve := fun v => v.map (· * 2)
  factor := some 3
  fieldOf := fun v => v.headD 0

def loopSp (name : String) (q m ix : ℚ) : Sp ℚ ℚ Dep :=
  ⟨name, SAP.new 2 (0, 0, 0), q, m, ix, [7, 7, 7], [7, 7]⟩

def loopState (n : Nat) (sps : List (Sp ℚ ℚ Dep)) : State ℚ ℚ Dep Nat ℚ where
  count := 0
  time := 0
  sps := sps
  side := 0
  field := 0
  solver := ⟨[5, 5, 5], [0, 0, 0], [0, 0, 0]⟩
  writer := some (Output.newWriter 2 2 0)
  hist := some ⟨List.replicate (n + 1) ⟨0, 0, []⟩, 0, 1⟩
  phiLog := []
  cellLog := []

def loopIdeal (sps : List (Sp ℚ ℚ Dep)) : Ideal ℚ ℚ Dep Nat :=
  ⟨0, 0, sps.map (fun sp => ⟨sp.name, sp.charge, sp.mass, sp.index, ⟨[], false⟩⟩), 0, []⟩

def onDemo (p : Dep) : Bool := decide (p.1 < 2)

theorem loop_good (ss : List (Src ℚ Dep Nat)) : GoodCfg (loopCfg ss) :=
  ⟨demoOut_good, by simp [loopCfg], by simp [loopCfg], by simp [loopCfg], by simp [loopCfg]⟩

theorem loop_mesh (ss : List (Src ℚ Dep Nat)) : GoodMesh (loopCfg ss) onDemo (fun k => 1 - k) 3 2 := by
  refine ⟨?_, ?_, Fld.demo_cell⟩
  · rintro ⟨c, x, w⟩ _
    refine ⟨?_, ?_, ?_⟩
    · intro i hi
      simp only [loopCfg, demoCG, demoAttrs] at hi
      split at hi <;> simp at hi <;> omega
    · simp only [loopCfg, demoCG, demoAttrs]
      split <;> decide
    · simp only [loopCfg, demoCG, demoAttrs]
      split <;> rfl
  · intro p hp
    exact of_decide_eq_true hp

theorem loop_fresh (n : Nat) (l : List (String × ℚ × ℚ × ℚ)) :
    Fresh 2 3 2 n ⟨0, 0, []⟩ (loopState n (l.map (fun a => loopSp a.1 a.2.1 a.2.2.1 a.2.2.2)))
      (loopIdeal (l.map (fun a => loopSp a.1 a.2.1 a.2.2.1 a.2.2.2))) [0, 0, 0] := by
  refine ⟨rfl, rfl, rfl, rfl, rfl, ?_, ?_, ?_, ?_, rfl, rfl⟩
  · simp only [loopState, loopIdeal, List.forall₂_map_right_iff, List.forall₂_same, List.mem_map]
    rintro _ ⟨a, _, rfl⟩
    exact ⟨rfl, rfl, rfl, rfl, ⟨SAP.Reachable.new 2 _ (by decide), SAP.new_sim 2 _ (by decide), rfl⟩,
      rfl, rfl⟩
  · intro p hp
    simp only [loopIdeal, List.map_map, List.mem_map] at hp
    obtain ⟨a, _, rfl⟩ := hp
    rfl
  · exact Or.inr ⟨_, rfl, newWriter_ready 2 2 (by decide) 0, rfl, by simp [Output.newWriter, loopIdeal]⟩
  · simp [HistIs, loopState]

def loopSps : List (Sp ℚ ℚ Dep) := [("e", -1, 1, 1), ("H", 0, 4, 2)].map
  (fun a => loopSp a.1 a.2.1 a.2.2.1 a.2.2.2)

/-- Initial particles; the electrons in two orders. -/
def loopInit (swap : Bool) : List (String × List Dep) :=
  [("e", if swap then [(1, 3 / 2, 1), (0, 1 / 4, 2), (1, 7 / 4, 3)]
    else [(1, 7 / 4, 3), (1, 3 / 2, 1), (0, 1 / 4, 2)]), ("H", [(1, 1, 5)])]

/-- Cells and weights in the states of a simulation. -/
def loopView (r : Except Fault (Ideal ℚ ℚ Dep Nat × List (Ideal ℚ ℚ Dep Nat))) :
    List (Int × List (List (Nat × ℚ))) :=
  match r with
  | .ok (i0, is) => (i0 :: is).map (fun i => (i.count, i.pops.map (fun p => p.st.items.map
      (fun d => (d.1, d.2.2)))))
  | .error _ => []

abbrev loopRun (n : Nat) : Except Fault (Ideal ℚ ℚ Dep Nat × List (Ideal ℚ ℚ Dep Nat)) :=
  Ideal.run (loopCfg [loopSource]) 2 3 onDemo (some (loopInit false)) [0, 0, 0] n (loopIdeal loopSps)

-- The simulation on lists goes through four states: an electron leaves and one is added at step 2.
example : loopView (loopRun 3) =
    [(0, [[(1, 3), (1, 1), (0, 2)], [(1, 5)]]), (1, [[(1, 3), (1, 1), (0, 2)], [(1, 5)]]),
     (2, [[(1, 1), (0, 2), (0, 2)], [(1, 5)]]), (3, [[(1, 1), (0, 2), (0, 2)], [(1, 5)]])] := by
  decide +kernel

theorem loopRun_ok : ∃ i0 is, loopRun 3 = .ok (i0, is) := by
  have h : (loopRun 3).toOption.isSome = true := by decide +kernel
  cases e : loopRun 3 with
  | error f => rw [e] at h; cases h
  | ok r => exact ⟨r.1, r.2, rfl⟩

-- C68: the hypotheses are met, so the program goes through the same states.
example : ∃ i0 is st', loopRun 3 = .ok (i0, is) ∧
    run (loopCfg [loopSource]) (some (loopInit false)) 3 (loopState 3 loopSps) = .ok st' ∧
    Outcome (loopCfg [loopSource]) (fun k => 1 - k) 2 true [0, 0, 0] (loopState 3 loopSps) st' i0 is := by
  have h := C68_run (loop_good [loopSource]) (loop_mesh _) 3 (some (loopInit false))
    (loop_fresh 3 [("e", -1, 1, 1), ("H", 0, 4, 2)]) (by simp [loopState])
  obtain ⟨i0, is, e⟩ := loopRun_ok
  have e' : Ideal.run (loopCfg [loopSource]) 2 3 onDemo (some (loopInit false)) [0, 0, 0] 3 (loopIdeal
    (([("e", -1, 1, 1), ("H", 0, 4, 2)] : List (String × ℚ × ℚ × ℚ)).map
      (fun a => loopSp a.1 a.2.1 a.2.2.1 a.2.2.2))) = .ok (i0, is) := e
  rw [e'] at h
  obtain ⟨_, st', e2, h2⟩ := h
  exact ⟨i0, is, st', e, e2, h2⟩

/-- C69 fails: with interval 2 and 2 steps the file is open after the program has ended; with 3 steps
it is closed. -/
theorem C69_false_left_open :
    ((run (loopCfg [loopSource]) (some (loopInit false)) 2 (loopState 2 loopSps)).toOption.map
      (fun s => s.writer.map (fun w => w.file.isOpen))) = some (some true) ∧
    ((run (loopCfg [loopSource]) (some (loopInit false)) 3 (loopState 3 loopSps)).toOption.map
      (fun s => s.writer.map (fun w => w.file.isOpen))) = some (some false) := by decide +kernel

/-- C70 fails: neither the mover nor the source fails, but the program raises when the source adds an
electron at the step in which the last electron of the container has left and the survivors fill their
segment.  With the electrons in another order, or without the source, it does not. -/
theorem C70_false_source_after_loss :
    (run (loopCfg [loopSource]) (some (loopInit true)) 3 (loopState 3 loopSps)).map (fun _ => ()) =
      .error .assertion ∧
    (run (loopCfg [loopSource]) (some (loopInit false)) 3 (loopState 3 loopSps)).map (fun _ => ()) = .ok () ∧
    (run (loopCfg []) (some (loopInit true)) 3 (loopState 3 loopSps)).map (fun _ => ()) = .ok () := by
  decide +kernel

-- C70: a source of a neutral species; segments of length 2, so three steps fail.
example (n : Nat) (hn : 2 < n) :
    run (loopCfg [⟨"left", "H", 1, fun c _ side => .ok (side, [(0, 1 / 8, (c : ℚ))])⟩]) none n
      (loopState n [loopSp "H" 0 4 2]) = .error .assertion :=
  C70_neutral_source_raises_partial (loop_good _) (loop_mesh _) n (loop_fresh n [("H", 0, 4, 2)])
    (by simp [loopState]) rfl rfl (fun c t side => ⟨side, _, rfl, by simp, by simp [onDemo]⟩)
    (p := ⟨"H", 0, 4, 2, ⟨[], false⟩⟩) rfl rfl rfl hn
example : ((run (loopCfg [⟨"left", "H", 1, fun c _ side => .ok (side, [(0, 1 / 8, (c : ℚ))])⟩]) none 2
      (loopState 2 [loopSp "H" 0 4 2])).map (fun _ => ())) = .ok () := by decide +kernel

theorem loopMove_weight (sn : String) (f : ℚ) (c : Int) (t : ℚ) (st : Nat) (i o : Int) (b : Bool)
    (p : Dep) (st' : Nat) (p' : Dep) (fl : Bool) (h : loopMove sn f c t st i o b p = .ok (st', p', fl)) :
    (fun q : Dep => q.2.2) p' = (fun q : Dep => q.2.2) p := by
  unfold loopMove at h
  split at h
  · simp only [Except.ok.injEq, Prod.mk.injEq] at h
    rw [← h.2.1]
  · simp only [Except.ok.injEq, Prod.mk.injEq] at h
    rw [← h.2.1]

-- C71: weights identify the particles; of 3, 1, 2 and the new 2 the first is lost.
example : ∃ i0 is st', loopRun 3 = .ok (i0, is) ∧
    run (loopCfg [loopSource]) (some (loopInit false)) 3 (loopState 3 loopSps) = .ok st' ∧
    List.Forall₂ (fun (sp sp' : Sp ℚ ℚ Dep) => sp'.name = sp.name ∧ ∃ xs, Stores sp'.sap xs ∧
        (xs.map (fun q : Dep => q.2.2)).Sublist ((given (some (loopInit false)) sp.name).map
            (fun q : Dep => q.2.2) ++
          (before i0 is).flatMap (fun j => (j.made (loopCfg [loopSource]) 2 sp.name).map
            (fun q : Dep => q.2.2))) ∧
        (sp.charge = 0 → xs = given (some (loopInit false)) sp.name ++
          (before i0 is).flatMap (fun j => j.made (loopCfg [loopSource]) 2 sp.name)))
      (loopState 3 loopSps).sps st'.sps := by
  obtain ⟨i0, is, e⟩ := loopRun_ok
  obtain ⟨st', e2, h⟩ := C71_particles_accounted_for (loop_good [loopSource]) (loop_mesh _) 3
    (some (loopInit false)) (loop_fresh 3 [("e", -1, 1, 1), ("H", 0, 4, 2)]) (by simp [loopState])
    (by decide) (fun q : Dep => q.2.2) loopMove_weight (i0 := i0) (is := is) e
  exact ⟨i0, is, st', e, e2, h⟩
example : ((loopRun 3).toOption.map (fun r => (before r.1 r.2).map
    (fun j => (j.made (loopCfg [loopSource]) 2 "e").map (fun q : Dep => q.2.2)))) =
      some [[], [2], []] := by decide +kernel

theorem demo_basis (p : Dep) : (demoCG.basis p).sum = 1 := by
  simp [demoCG]

-- C72: the states of the demo meet the hypotheses.
example : ∃ i0 is st', loopRun 3 = .ok (i0, is) ∧
    run (loopCfg [loopSource]) (some (loopInit false)) 3 (loopState 3 loopSps) = .ok st' ∧
    ∀ j ∈ i0 :: is, ∃ v : List ℚ, v.length = 3 ∧
      v.sum = Spec.totalCharge (fun q : Dep => q.2.2) j.pops * 3 ∧ j.phi = v.map (· * 2) := by
  obtain ⟨i0, is, e⟩ := loopRun_ok
  obtain ⟨st', e2, _, h⟩ := C72_charge_conserved_partial (loop_good [loopSource]) (loop_mesh _) 3
    (some (loopInit false)) (loop_fresh 3 [("e", -1, 1, 1), ("H", 0, 4, 2)]) (by simp [loopState])
    (fun p _ => demo_basis p) (i0 := i0) (is := is) e
  exact ⟨i0, is, st', e, e2, h⟩
example : ((loopRun 3).toOption.map (fun r => (r.1 :: r.2).map
    (fun i => Spec.totalCharge (fun q : Dep => q.2.2) i.pops))) = some [-6, -6, -5, -5] := by
  decide +kernel

/-- C72 fails after a species has lost all its particles in one step: the containers hold no particle,
but the potentials of this and all later steps are solved from the charge of the records left over. -/
theorem C72_false_ghost_charge :
    ((run (loopCfg []) (some [("e", [(1, 19 / 10, 4)])]) 3 (loopState 3 loopSps)).toOption.map
      (fun s => (s.sps.map (fun sp => sp.sap.getNumberOfItems), s.solver.charge, s.phiLog.map (·.2)))) =
    some ([0, 0], [0, -69 / 5, 9 / 5], [[0, 0, 0], [0, -108 / 5, -12 / 5], [0, -138 / 5, 18 / 5],
      [0, -138 / 5, 18 / 5], [0, -138 / 5, 18 / 5]]) := by decide +kernel

end Demo

end Dt
