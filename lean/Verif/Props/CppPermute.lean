import Verif.Props.Permute
import Verif.Props.CppPlasma

/-!
# The order of the particles in simulations with compiled movers (C125)
-/

set_option linter.unusedSectionVars false

namespace Dt
open Spec Poisson Dt.Topology TimeLoop
variable {K V α σ φ : Type} [Field K] [LinearOrder K] [IsStrictOrderedRing K]

theorem comp_movePop_oblivious {mv : String → Adv σ α} (hmv : ∀ sn, Oblivious (mv sn)) {p : Pop K V α} :
    ∃ (g : α → Option α) (ok : α → Prop), ∀ (xs : List α) (st : Bool) (sl : Nat) (side : σ),
      (∀ r, Comp.movePop sl mv { p with st := ⟨xs, st⟩ } side = .ok r →
        r.1.name = p.name ∧ r.1.charge = p.charge ∧ r.1.mass = p.mass ∧ r.1.index = p.index ∧
        r.1.st.items = xs.filterMap g ∧ (∀ x ∈ xs, ok x) ∧ (p.charge ≠ 0 → xs.length < 4294967296)) ∧
      ((∀ x ∈ xs, ok x) → (p.charge ≠ 0 → xs.length < 4294967296) → ∃ r, Comp.movePop sl mv { p with st := ⟨xs, st⟩ } side = .ok r) := by
  by_cases hc : p.charge = 0
  · refine ⟨some, fun _ => True, fun xs st sl side => ⟨fun r hr => ?_, fun _ _ => ?_⟩⟩
    · unfold Comp.movePop at hr
      rw [if_pos (Or.inl hc)] at hr
      cases hr
      simp [hc]
    · unfold Comp.movePop
      rw [if_pos (Or.inl hc)]
      exact ⟨_, rfl⟩
  · obtain ⟨f, hf⟩ := hmv p.name
    refine ⟨surviving f, fun x => ∃ r, f x = some r, fun xs st sl side => ?_⟩
    by_cases hx : xs = []
    · subst hx
      refine ⟨fun r hr => ?_, fun _ _ => ?_⟩
      · unfold Comp.movePop at hr
        rw [if_pos (Or.inr rfl)] at hr
        cases hr
        simp
      · unfold Comp.movePop
        rw [if_pos (Or.inr rfl)]
        exact ⟨_, rfl⟩
    · obtain ⟨a1, a2⟩ := pass_oblivious hf xs side 0 0
      have hne : ¬ (p.charge = 0 ∨ xs = []) := fun h => h.elim hc hx
      refine ⟨fun r hr => ?_, fun h1 h2 => ?_⟩
      · unfold Comp.movePop at hr
        rw [if_neg hne] at hr
        dsimp only at hr
        split at hr
        · cases hr
        · rename_i hlen
          split at hr
          · cases hr
          · rename_i side' ys e
            cases hr
            obtain ⟨b1, b2⟩ := a1 _ e
            exact ⟨rfl, rfl, rfl, rfl, b2, b1, fun _ => by omega⟩
      · obtain ⟨r, hr⟩ := a2 h1
        have hlen := h2 hc
        unfold Comp.movePop
        rw [if_neg hne]
        dsimp only
        rw [if_neg (by omega), hr]
        exact ⟨_, rfl⟩

theorem comp_moveAll_perm {sl sl' : Nat} {mv : String → Adv σ α} (hmv : ∀ sn, Oblivious (mv sn)) {l l' : List (Pop K V α)}
    (h : Permuted l l') {side side' : σ} {r : List (Pop K V α) × σ} (hr : Comp.moveAll sl mv l side = .ok r) :
    r.1.map (·.name) = l.map (·.name) ∧ ∃ r', Comp.moveAll sl' mv l' side' = .ok r' ∧ Permuted r.1 r'.1 := by
  unfold Permuted at h
  induction h generalizing side side' r with
  | nil =>
    simp only [Comp.moveAll, Except.ok.injEq] at hr
    subst hr
    exact ⟨rfl, _, rfl, .nil⟩
  | @cons s s' l l' hs _ ih =>
    simp only [Comp.moveAll] at hr
    split at hr
    · cases hr
    · rename_i p1 side1 e1
      split at hr
      · cases hr
      · rename_i ps1 side2 e2
        cases hr
        obtain ⟨g, ok, hg⟩ := comp_movePop_oblivious hmv (p := s)
        obtain ⟨c1, c2, c3, c4, c5, c6, c7⟩ := (hg s.st.items s.st.stale sl side).1 _ e1
        obtain ⟨n1, n2, n3, n4, n5⟩ := hs
        have es : s' = { s with st := ⟨s'.st.items, s'.st.stale⟩ } := by
          obtain ⟨a, b, c, d, e⟩ := s'
          dsimp only at n1 n2 n3 n4
          subst n1 n2 n3 n4
          rfl
        have hp := n5.filterMap g
        obtain ⟨q, hq⟩ := (hg s'.st.items s'.st.stale sl' side').2 (fun x hx => c6 x (n5.mem_iff.1 hx)) (fun hch => by
          rw [n5.length_eq]
          exact c7 hch)
        obtain ⟨d1, d2, d3, d4, d5, d6, d7⟩ := (hg s'.st.items s'.st.stale sl' side').1 _ hq
        rw [← es] at hq
        obtain ⟨i1, r', i2, i3⟩ := ih (side' := q.2) e2
        dsimp only at c1 i1
        refine ⟨by simp [c1, i1], (q.1 :: r'.1, r'.2), ?_, .cons ⟨?_, ?_, ?_, ?_, ?_⟩ i3⟩
        · simp only [Comp.moveAll, hq, i2]
        · rw [d1, c1]
        · rw [d2, c2]
        · rw [d3, c3]
        · rw [d4, c4]
        · rw [d5, c5]; exact hp

section
variable {cfg cfg' : Cfg K V α σ φ} {sl sl' D : Nat} {onMesh : α → Bool}

theorem comp_settle_perm (hp : SamePhysics cfg cfg') {l l' : List (Pop K V α)} (h : Permuted l l') {count : Int} {time : K}
    {side side' : σ} {j : Ideal K V α σ} (hj : Comp.settle cfg D onMesh count time l side = .ok j) :
    ∃ j', Comp.settle cfg' D onMesh count time l' side' = .ok j' ∧ SameUpToOrder j j' := by
  unfold Comp.settle at hj ⊢
  rw [perm_onMesh h]
  split at hj
  · rename_i ho
    rw [if_pos ho]
    cases hj
    exact ⟨_, rfl, rfl, rfl, perm_potential hp h D, perm_looked h⟩
  · cases hj

/-- C125.  One step of two simulations with the same particles in different orders: the same particles, with all their
attributes, and the same potential. -/
theorem C125_step (hp : SamePhysics cfg cfg') (hmv : ∀ sn f count time, Oblivious (cfg.move sn f count time))
    (hst : ∀ s ∈ cfg.sources, Steady s) {i i' j j' : Ideal K V α σ} (hn : (i.pops.map (·.name)).Nodup)
    (hi : SameUpToOrder i i') (h : Comp.step cfg sl D onMesh i = .ok j) (h' : Comp.step cfg' sl' D onMesh i' = .ok j') :
    SameUpToOrder j j' := by
  obtain ⟨e1, e2, e3, e4⟩ := hi
  unfold Comp.step at h h'
  dsimp only at h h'
  rw [hp.move, hp.fieldOf, hp.dt, hp.sources, e1, e2, e3] at h'
  split at h
  · cases h
  · rename_i ps side hmo
    obtain ⟨a1, r', a2, a3⟩ := comp_moveAll_perm (sl' := sl') (side' := i'.side) (fun sn => hmv sn _ _ _) e4 hmo
    rw [a2] at h'
    dsimp only at h' a1 a3
    split at h
    · cases h
    · rename_i ps1 side1 hcr
      split at h'
      · cases h'
      · rename_i ps1' side1' hcr'
        have b := CppPlasma.createAll_at (a1 ▸ hn) hcr
        have b' := CppPlasma.createAll_at (by rw [permuted_names a3, a1]; exact hn) hcr'
        have hperm : Permuted ps1 ps1' := by
          clear hcr hcr' h h' a1 a2 hmo
          unfold Permuted at a3 ⊢
          generalize r'.1 = l' at a3 b'
          induction a3 generalizing ps1 ps1' with
          | nil => cases b; cases b'; exact .nil
          | cons hs _ ih =>
            cases b with
            | cons b1 b2 =>
            cases b' with
            | cons b1' b2' =>
            refine .cons ?_ (ih _ _ b2 b2')
            obtain ⟨e1, e2, e3, e4, e5⟩ := hs
            obtain ⟨f1, f2, f3, f4, f5⟩ := b1
            obtain ⟨g1, g2, g3, g4, g5⟩ := b1'
            refine ⟨by rw [g1, f1, e1], by rw [g2, f2, e2], by rw [g3, f3, e3], by rw [g4, f4, e4], ?_⟩
            rw [f5, g5, e1, created_steady _ _ _ hst r'.2 side]
            exact e5.append_right _
        obtain ⟨k, hk, hs⟩ := comp_settle_perm hp hperm (side' := side1') h
        rw [hk] at h'
        cases h'
        exact hs

theorem comp_step_names {i j : Ideal K V α σ} (hmv : ∀ sn f count time, Oblivious (cfg.move sn f count time))
    (hn : (i.pops.map (·.name)).Nodup) (h : Comp.step cfg sl D onMesh i = .ok j) : j.pops.map (·.name) = i.pops.map (·.name) := by
  unfold Comp.step at h
  dsimp only at h
  split at h
  · cases h
  · rename_i ps side hmo
    obtain ⟨a1, -⟩ := comp_moveAll_perm (sl' := sl) (side' := i.side) (fun sn => hmv sn _ _ _)
      (show Permuted i.pops i.pops from List.forall₂_same.2 fun _ _ => ⟨rfl, rfl, rfl, rfl, .refl _⟩) hmo
    dsimp only at a1
    split at h
    · cases h
    · rename_i ps1 side1 hcr
      have b := forall₂_names (CppPlasma.createAll_at (a1 ▸ hn) hcr) (fun _ _ k => k.1)
      unfold Comp.settle at h
      split at h
      · cases h
        rw [← a1, ← b]
        simp [looked]
      · cases h

theorem comp_run_split {init : Option (List (String × List α))} {b : List K} {n : Nat} {i i0 : Ideal K V α σ} {is : List (Ideal K V α σ)} :
    Comp.run cfg sl D onMesh init b n i = .ok (i0, is) ↔
      Comp.start cfg sl D onMesh init b i = .ok i0 ∧ Comp.steps cfg sl D onMesh n i0 = .ok is := by
  unfold Comp.run
  constructor
  · intro hr
    split at hr
    · cases hr
    · rename_i h1
      split at hr
      · cases hr
      · rename_i h2
        cases hr
        exact ⟨h1, h2⟩
  · rintro ⟨h1, h2⟩
    rw [h1]
    dsimp only
    rw [h2]

theorem comp_steps_perm (hp : SamePhysics cfg cfg') (hmv : ∀ sn f count time, Oblivious (cfg.move sn f count time))
    (hst : ∀ s ∈ cfg.sources, Steady s) (n : Nat) {i i' : Ideal K V α σ} {is is' : List (Ideal K V α σ)}
    (hn : (i.pops.map (·.name)).Nodup) (hi : SameUpToOrder i i')
    (h : Comp.steps cfg sl D onMesh n i = .ok is) (h' : Comp.steps cfg' sl' D onMesh n i' = .ok is') :
    List.Forall₂ SameUpToOrder (i :: is) (i' :: is') := by
  induction n generalizing i i' is is' with
  | zero =>
    simp only [Comp.steps, Except.ok.injEq] at h h'
    subst h h'
    exact .cons hi .nil
  | succ n ih =>
    simp only [Comp.steps] at h h'
    split at h
    · cases h
    · rename_i j hj
      split at h
      · cases h
      · rename_i js hjs
        cases h
        split at h'
        · cases h'
        · rename_i j' hj'
          split at h'
          · cases h'
          · rename_i js' hjs'
            cases h'
            exact .cons hi (ih (by rw [comp_step_names hmv hn hj]; exact hn) (C125_step hp hmv hst hn hi hj hj') hjs hjs')

theorem comp_start_all {init : Option (List (String × List α))} {b : List K} {i i0 : Ideal K V α σ}
    (hn : (i.pops.map (·.name)).Nodup) (h : Comp.start cfg sl D onMesh init b i = .ok i0) :
    i0.count = i.count ∧ i0.time = i.time ∧
    List.Forall₂ (fun p p' => p'.name = p.name ∧ p'.charge = p.charge ∧ p'.mass = p.mass ∧ p'.index = p.index ∧
      p'.st.items = p.st.items ++ given init p.name) i.pops i0.pops := by
  cases init with
  | none =>
    simp only [Comp.start, Except.ok.injEq] at h
    rw [← h]
    refine ⟨rfl, rfl, ?_⟩
    rw [List.forall₂_same]
    simp [given]
  | some gs =>
    simp only [Comp.start] at h
    split at h
    · cases h
    · rename_i ps hps
      have a1 : List.Forall₂ (fun p p' => p'.name = p.name ∧ p'.charge = p.charge ∧ p'.mass = p.mass ∧ p'.index = p.index ∧
          p'.st.items = p.st.items ++ given (some gs) p.name) i.pops ps := by
        clear h
        generalize i.pops = ps0 at hn hps
        induction gs generalizing ps0 with
        | nil =>
          simp only [Comp.appendGroups, Except.ok.injEq] at hps
          rw [← hps, List.forall₂_same]
          simp [given]
        | cons g gs ih =>
          simp only [Comp.appendGroups] at hps
          split at hps
          · cases hps
          · rename_i ps1 h1
            have a1 := CppPlasma.appendTo_at hn h1
            have a2 := ih _ (by rw [forall₂_names a1 (fun _ _ k => k.1)]; exact hn) hps
            refine forall₂_trans' ?_ a1 a2
            rintro a b c ⟨n1, c1, m1, k1, e1⟩ ⟨n2, c2, m2, k2, e2⟩
            refine ⟨n2.trans n1, c2.trans c1, m2.trans m1, k2.trans k1, ?_⟩
            rw [e2, e1, n1]
            simp [given]
      unfold Comp.settle at h
      split at h
      · cases h
        refine ⟨rfl, rfl, ?_⟩
        simp only [List.forall₂_map_right_iff]
        exact a1.imp (fun a b k => k)
      · cases h

theorem comp_start_perm (hp : SamePhysics cfg cfg') {init init' : List (String × List α)} {b b' : List K} {i i' i0 i0' : Ideal K V α σ}
    (hn : (i.pops.map (·.name)).Nodup) (hc : i'.count = i.count) (ht : i'.time = i.time) (hpo : Permuted i.pops i'.pops)
    (hg : ∀ name, (given (some init') name).Perm (given (some init) name))
    (h : Comp.start cfg sl D onMesh (some init) b i = .ok i0) (h' : Comp.start cfg' sl' D onMesh (some init') b' i' = .ok i0') :
    SameUpToOrder i0 i0' := by
  obtain ⟨a1, a2, a3⟩ := comp_start_all hn h
  obtain ⟨a1', a2', a3'⟩ := comp_start_all (by rw [permuted_names hpo]; exact hn) h'
  have h0 : Permuted i0.pops i0'.pops := by
    clear h h' hn hc ht
    unfold Permuted at hpo ⊢
    generalize i.pops = l at hpo a3
    generalize i'.pops = l' at hpo a3'
    generalize i0.pops = m at a3
    generalize i0'.pops = m' at a3'
    induction hpo generalizing m m' with
    | nil => cases a3; cases a3'; exact .nil
    | @cons s s' l l' hss _ ih =>
      cases a3 with
      | cons b1 b2 =>
      cases a3' with
      | cons c1 c2 =>
      refine .cons ?_ (ih _ b2 _ c2)
      obtain ⟨e1, e2, e3, e4, e5⟩ := hss
      obtain ⟨f1, f2, f3, f4, f5⟩ := b1
      obtain ⟨g1, g2, g3, g4, g5⟩ := c1
      refine ⟨by rw [g1, f1, e1], by rw [g2, f2, e2], by rw [g3, f3, e3], by rw [g4, f4, e4], ?_⟩
      rw [f5, g5, e1]
      exact e5.append (hg _)
  refine ⟨by rw [a1, a1', hc], by rw [a2, a2', ht], ?_, h0⟩
  simp only [Comp.start] at h h'
  split at h
  · cases h
  · split at h'
    · cases h'
    · unfold Comp.settle at h h'
      split at h
      · cases h
        split at h'
        · cases h'
          refine perm_potential hp ?_ D
          unfold Permuted at h0 ⊢
          simp only [List.forall₂_map_left_iff, List.forall₂_map_right_iff] at h0
          exact h0.imp fun _ _ k => k
        · cases h'
      · cases h

/-- C125.  Two simulations that differ in the order of the initial particles, the length of the segments of the
containers, the output intervals, the histories and the files: after each step the same particles, with all their
attributes, and the same potential.  Any mesh, any dimension, any field solver. -/
theorem C125_run (hp : SamePhysics cfg cfg') (hmv : ∀ sn f count time, Oblivious (cfg.move sn f count time))
    (hst : ∀ s ∈ cfg.sources, Steady s) {init init' : List (String × List α)} {b b' : List K} {n : Nat}
    {i i' i0 i0' : Ideal K V α σ} {is is' : List (Ideal K V α σ)}
    (hr : Comp.run cfg sl D onMesh (some init) b n i = .ok (i0, is))
    (hr' : Comp.run cfg' sl' D onMesh (some init') b' n i' = .ok (i0', is'))
    (hn : (i.pops.map (·.name)).Nodup) (hc : i'.count = i.count) (ht : i'.time = i.time) (hpo : Permuted i.pops i'.pops)
    (hg : ∀ name, (given (some init') name).Perm (given (some init) name)) :
    List.Forall₂ SameUpToOrder (i0 :: is) (i0' :: is') := by
  obtain ⟨s1, s2⟩ := comp_run_split.1 hr
  obtain ⟨s1', s2'⟩ := comp_run_split.1 hr'
  have hn0 : (i0.pops.map (·.name)).Nodup := by
    rw [forall₂_names (comp_start_all hn s1).2.2 (fun _ _ k => k.1)]
    exact hn
  exact comp_steps_perm hp hmv hst n hn0 (comp_start_perm hp hn hc ht hpo hg s1 s1') s2 s2'

theorem comp_steps_fate (hp : SamePhysics cfg cfg') (hmv : ∀ sn f count time, Oblivious (cfg.move sn f count time))
    (hst : cfg.sources = []) (n : Nat) {i i' : Ideal K V α σ} {is : List (Ideal K V α σ)}
    (hn : (i.pops.map (·.name)).Nodup) (hi : SameUpToOrder i i')
    (h : Comp.steps cfg sl D onMesh n i = .ok is) : ∃ is', Comp.steps cfg' sl' D onMesh n i' = .ok is' := by
  induction n generalizing i i' is with
  | zero => exact ⟨_, rfl⟩
  | succ n ih =>
    simp only [Comp.steps] at h
    split at h
    · cases h
    · rename_i j hj
      split at h
      · cases h
      · rename_i js hjs
        cases h
        have hstep : ∃ j', Comp.step cfg' sl' D onMesh i' = .ok j' := by
          obtain ⟨e1, e2, e3, e4⟩ := hi
          unfold Comp.step at hj ⊢
          dsimp only at hj ⊢
          rw [hp.move, hp.fieldOf, hp.dt, hp.sources, e1, e2, e3]
          split at hj
          · cases hj
          · rename_i ps side hmo
            obtain ⟨a1, r', a2, a3⟩ := comp_moveAll_perm (sl' := sl') (side' := i'.side) (fun sn => hmv sn _ _ _) e4 hmo
            rw [a2]
            rw [hst] at hj ⊢
            simp only [Comp.createAll] at hj ⊢
            obtain ⟨j', hj', -⟩ := comp_settle_perm hp a3 (side' := r'.2) hj
            exact ⟨j', hj'⟩
        obtain ⟨j', hj'⟩ := hstep
        obtain ⟨is', h'⟩ := ih (i' := j') (by rw [comp_step_names hmv hn hj]; exact hn)
          (C125_step hp hmv (by rw [hst]; intro s hs; cases hs) hn hi hj hj') hjs
        refine ⟨j' :: is', ?_⟩
        simp only [Comp.steps, hj', h']

theorem comp_appendAll_fresh (xs : List α) (st : LState α) : ∃ st', Comp.appendAll false sl st xs = .ok st' := by
  induction xs generalizing st with
  | nil => exact ⟨_, rfl⟩
  | cons x xs ih =>
    simp only [Comp.appendAll]
    rw [if_neg (by simp)]
    exact ih _

theorem comp_appendGroups_fresh (gs : List (String × List α)) {ps : List (Pop K V α)}
    (hk : ∀ g ∈ gs, g.1 ∈ ps.map (·.name)) : ∃ ps', Comp.appendGroups sl gs ps = .ok ps' := by
  have key : ∀ (name : String) (xs : List α) (ps : List (Pop K V α)), name ∈ ps.map (·.name) →
      ∃ ps', Comp.appendTo false sl name xs ps = .ok ps' ∧ ps'.map (·.name) = ps.map (·.name) := by
    intro name xs ps
    induction ps with
    | nil => intro h; cases h
    | cons p ps ih =>
      intro hk
      simp only [Comp.appendTo]
      by_cases he : p.name = name
      · obtain ⟨st', e⟩ := comp_appendAll_fresh (sl := sl) xs p.st
        rw [if_pos he, e]
        exact ⟨_, rfl, rfl⟩
      · rw [if_neg he]
        obtain ⟨ps', e, h2⟩ := ih (by
          rcases List.mem_cons.1 hk with hk | hk
          · exact absurd hk.symm he
          · exact hk)
        rw [e]
        exact ⟨_, rfl, by simp [h2]⟩
  induction gs generalizing ps with
  | nil => exact ⟨_, rfl⟩
  | cons g gs ih =>
    obtain ⟨ps1, e, h2⟩ := key g.1 g.2 ps (hk g (by simp))
    simp only [Comp.appendGroups, e]
    exact ih fun g' hg' => by rw [h2]; exact hk g' (by simp [hg'])

/-- C125.  Without sources the order of the initial particles does not decide whether the simulation runs, either. -/
theorem C125_runs (hp : SamePhysics cfg cfg') (hmv : ∀ sn f count time, Oblivious (cfg.move sn f count time))
    (hst : cfg.sources = []) {init init' : List (String × List α)} {b b' : List K} {n : Nat}
    {i i' i0 : Ideal K V α σ} {is : List (Ideal K V α σ)}
    (hr : Comp.run cfg sl D onMesh (some init) b n i = .ok (i0, is))
    (hn : (i.pops.map (·.name)).Nodup) (hc : i'.count = i.count) (ht : i'.time = i.time) (hpo : Permuted i.pops i'.pops)
    (hk : ∀ g ∈ init', g.1 ∈ i'.pops.map (·.name))
    (hg : ∀ name, (given (some init') name).Perm (given (some init) name)) :
    ∃ i0' is', Comp.run cfg' sl' D onMesh (some init') b' n i' = .ok (i0', is') ∧
      List.Forall₂ SameUpToOrder (i0 :: is) (i0' :: is') := by
  obtain ⟨s1, s2⟩ := comp_run_split.1 hr
  have hn0 : (i0.pops.map (·.name)).Nodup := by
    rw [forall₂_names (comp_start_all hn s1).2.2 (fun _ _ k => k.1)]
    exact hn
  have hs : ∃ i0', Comp.start cfg' sl' D onMesh (some init') b' i' = .ok i0' := by
    obtain ⟨ps', e⟩ := comp_appendGroups_fresh (sl := sl') init' hk
    have a3 := (comp_start_all hn s1).2.2
    have key : ∀ p' ∈ ps', p'.st.items.all onMesh = true := by
      -- the particles are those of the first simulation
      have s1 := s1
      simp only [Comp.start] at s1
      split at s1
      · cases s1
      · rename_i ps e1
        unfold Comp.settle at s1
        split at s1
        · rename_i ho
          have hq : ∃ j, (Comp.start cfg' sl' D (fun _ => true) (some init') b' i' = .ok j) ∧ j.pops = ps'.map looked := by
            refine ⟨⟨i'.count, i'.time, ps'.map looked, i'.side, potential cfg' D ps'⟩, ?_, rfl⟩
            simp only [Comp.start, e, Comp.settle]
            rw [if_pos (by simp)]
          obtain ⟨j, hj, hjp⟩ := hq
          have hq1 : Comp.start cfg sl D (fun _ => true) (some init) b i = .ok i0 := by
            simp only [Comp.start, e1, Comp.settle]
            rw [if_pos (by simp)]
            exact s1
          have hperm := (comp_start_perm hp hn hc ht hpo hg hq1 hj).2.2.2
          have h2 := perm_onMesh hperm onMesh
          cases s1
          rw [hjp] at h2
          simp only [List.all_map] at h2
          have h3 : (ps'.all fun p => p.st.items.all onMesh) = true := by
            have h4 : (ps'.all fun p => p.st.items.all onMesh) = ps.all fun p => p.st.items.all onMesh := by
              simpa [Function.comp_def, looked] using h2
            rw [h4, ho]
          exact fun p' hp' => List.all_eq_true.1 h3 p' hp'
        · cases s1
    simp only [Comp.start, e, Comp.settle]
    rw [if_pos (List.all_eq_true.2 key)]
    exact ⟨_, rfl⟩
  obtain ⟨i0', s1'⟩ := hs
  have h0 := comp_start_perm hp hn hc ht hpo hg s1 s1'
  obtain ⟨is', s2'⟩ := comp_steps_fate (sl' := sl') hp hmv hst n hn0 h0 s2
  exact ⟨i0', is', comp_run_split.2 ⟨s1', s2'⟩, comp_steps_perm hp hmv (by rw [hst]; intro s hs; cases hs) n hn0 h0 s2 s2'⟩

end


section
variable {g p : Nat} {τ ρ : Type}

/-- C125.  The compiled mover of charged particles on a triangulation treats each particle by itself if the callbacks do:
neither the user's state nor what earlier particles left in the scratch array matters. -/
theorem C125_mover {hg : g ≤ 3} {D : DMesh K g} (hD : Triangulation hg D) {nVerts : Nat} (hnum : Numbered D nVerts)
    (marker : Int → Int) : ∃ cm, buildCpp D nVerts marker = .ok cm ∧
    ∀ (hgp : g ≤ p) {L : Layout K p}, L.Right → ∀ {bc : String → Int → τ → BCall K g p ρ → Except Err (τ × Part K p ρ)},
      (∀ sn, MemorylessBC (bc sn)) → ∀ (maxCross : Nat) (dt : K) (qom : String → K) (E : String → φ → Part K p ρ → Option (Vec K p))
      (sn : String) (f : φ) (count : Int) (time : K), Oblivious (CppLoop.cppMove hgp L cm bc maxCross dt qom E sn f count time) := by
  obtain ⟨M, cm, -, ecm, ht⟩ := C107_same_mesh hD hnum 0 marker
  refine ⟨cm, ecm, fun hgp L hL bc hbc maxCross dt qom E sn f count time => ?_⟩
  obtain ⟨F, hF⟩ := C124_mover hgp M hbc maxCross dt qom E sn f count time
  refine ⟨F, fun st i o b q => ?_⟩
  rw [← hF st.1 i o b q]
  rcases (C109_movers ht hgp hL (bcC := bc) (bcP := bc) (fun _ _ _ _ _ => Iff.rfl) maxCross dt qom E sn f count time st st.1 i o b q rfl).cases with
    ⟨e1, e2, h1, h2⟩ | ⟨s1, s2, r, h1, h2, -⟩
  · rw [h1, h2]; rfl
  · rw [h1, h2]; rfl

end

/-- C125.  For the compiled programs: if the first ends normally (within the specification), so does the second, with the
same potential and the same particles in the containers. -/
theorem C125_program {cfg cfg' : Cfg K V α σ φ} {sl sl' D C C' : Nat} {onMesh : α → Bool} {d d' : Nat → Nat} (h2 : 2 ≤ sl) (h2' : 2 ≤ sl')
    (hc : CppLoop.GoodEvery cfg) (hc' : CppLoop.GoodEvery cfg') (hm : GoodMesh cfg onMesh d D C) (hm' : GoodMesh cfg' onMesh d' D C') (hp : SamePhysics cfg cfg')
    (hmv : ∀ sn f count time, Oblivious (cfg.move sn f count time)) (hst : cfg.sources = []) {skip skip' : Int} (hs : skip ≠ 0)
    (hs' : skip' ≠ 0) {n : Nat} {init init' : List (String × List α)} {st st' : CppLoop.State K V α σ φ} {i i' i0 : Ideal K V α σ}
    {is : List (Ideal K V α σ)} {b b' : List K} (hf : CppLoop.Fresh sl D C skip st i b) (hf' : CppLoop.Fresh sl' D C' skip' st' i' b')
    (hw : st.file = none → cfg.partEvery = none) (hw' : st'.file = none → cfg'.partEvery = none)
    (hr : Comp.run cfg sl D onMesh (some init) b n i = .ok (i0, is))
    (hn : (i.pops.map (·.name)).Nodup) (hco : i'.count = i.count) (ht : i'.time = i.time) (hpo : Permuted i.pops i'.pops)
    (hk : ∀ g ∈ init', g.1 ∈ i'.pops.map (·.name)) (hg : ∀ name, (given (some init') name).Perm (given (some init) name)) :
    ∃ s s', CppLoop.run cfg (some init) n st = .ok s ∧ CppLoop.run cfg' (some init') n st' = .ok s' ∧
      s'.count = s.count ∧ s'.time = s.time ∧ s'.solver.phi = s.solver.phi ∧
      List.Forall₂ (fun sp sp' => sp'.name = sp.name ∧ ∃ xs xs', CStores sp.sap xs ∧ CStores sp'.sap xs' ∧ xs'.Perm xs) s.sps s'.sps := by
  obtain ⟨i0', is', hr', hall⟩ := C125_runs (sl' := sl') (b' := b') hp hmv hst hr hn hco ht hpo hk hg
  have k := C109_run h2 hc hm hs n (some init) hf hw
  have k' := C109_run h2' hc' hm' hs' n (some init') hf' hw'
  rw [hr] at k
  rw [hr'] at k'
  obtain ⟨-, s, e, o⟩ := k
  obtain ⟨-, s', e', o'⟩ := k'
  obtain ⟨l1, l2, l3, l4⟩ := last_forall₂ hall
  refine ⟨s, s', e, e', ?_, ?_, ?_, ?_⟩
  · rw [o.count, o'.count]; exact l1
  · rw [o.time, o'.time]; exact l2
  · rw [o.phi, o'.phi]; exact l3
  · have p1 := o.particles
    have p2 := o'.particles
    unfold lastOf at p1 p2
    unfold Permuted at l4
    generalize (is.getLast?.getD i0).pops = m at l4 p1
    generalize (is'.getLast?.getD i0').pops = m' at l4 p2
    clear e e' o o'
    generalize s.sps = a at p1
    generalize s'.sps = a' at p2
    induction l4 generalizing a a' with
    | nil => cases p1; cases p2; exact .nil
    | cons hs _ ih =>
      cases p1 with
      | cons b1 b2 =>
      cases p2 with
      | cons c1 c2 =>
      exact .cons ⟨by rw [c1.1, b1.1, hs.1], _, _, b1.2, c1.2, hs.2.2.2.2⟩ (ih _ b2 _ c2)

section Demo

theorem kiteCpp_memoryless (sn : String) (f : List (Vec ℚ 2)) (count : Int) (time : ℚ) : Oblivious (kiteCppCfg.move sn f count time) := by
  obtain ⟨cm, ecm, key⟩ := C125_mover (p := 2) (τ := Unit) (ρ := Nat) (φ := List (Vec ℚ 2)) kite_triangulation kite_numbered (fun F => if F = 1 then 0 else 1)
  have hcm : kiteCpp = cm := by unfold kiteCpp; rw [ecm]; rfl
  have h : ∀ _ : String, MemorylessBC kiteSink := fun _ _ _ _ _ => rfl
  have := key (le_refl 2) C66_layouts.2.1 h 10 (1 / 2) (fun _ => -1) (fun _ f q => (f[q.cell.toNat]?).map (fun e => -e)) sn f count time
  rw [← hcm] at this
  exact this

theorem kiteCpp_every : CppLoop.GoodEvery kiteCppCfg := ⟨by simp [kiteCppCfg], by simp [kiteCppCfg], by simp [kiteCppCfg]⟩

theorem kiteCpp_plasma : PlasmaOn kiteCppCfg (kite false) (kiteShape false) 3 kiteMarks kiteSolver (fun k => k) 2 := by
  obtain ⟨a1, a2, a3, a4, a5, a6, a7, a8⟩ := kite_plasma
  exact ⟨a1, a2, a3, a4, a5, a6, a7, a8⟩

theorem kiteCpp_mesh : GoodMesh kiteCppCfg (onCells (kite false)) (fun k => k) (3 + 1) 2 := kiteCpp_plasma.goodMesh (kite_meshed false)

theorem kiteCpp_runs (n : Nat) : ∃ i0 is, Comp.run kiteCppCfg 2 (3 + 1) (onCells (kite false)) (some kiteInit) [0, 0, 0, 0] n kiteCppIdeal = .ok (i0, is) := by
  obtain ⟨M, cm, s, e, ecm, hs, key⟩ := C120_plasma (τ := Unit) (V := ℚ) (ρ := Nat) (eps := (1 : ℚ)) kite_triangulation kite_numbered
    kite_convex 0 (pmarker := fun F => if F = 1 then 0 else 1) (by decide) one_pos (kite_meshed false) (kite_linked false)
    (dd := kiteBCs) rfl rfl
  have hcm : kiteCpp = cm := by unfold kiteCpp; rw [ecm]; rfl
  have hs' : s = kiteSolver := by
    have : createOn 1 (kite false) (kiteShape false) 3 kiteMarks kiteBCs = .ok kiteSolver := rfl
    rw [hs] at this
    cases this
    rfl
  subst hs'
  obtain ⟨k1, k2⟩ := key (L := layoutXY) C66_layouts.2.1 (bc := fun _ => kiteSink) (fun _ => kite_sink M (kite_interior e)) (maxCross := 10)
    (qom := fun _ => -1) (cfg := kiteCppCfg) (by rw [← hcm]; rfl) (by simp [kiteCppCfg]) kiteCpp_plasma (le_refl 2)
    kiteCpp_every (skip := 2) (by decide) n (init := some kiteInit) kiteInit_in
    kiteCpp_fresh (by simp [kiteCppIdeal]) (by simp [kiteCppState])
  exact k2 (m := 2) (C102_plane kite_triangulation) (by decide) rfl (by
    intro gs hgs
    cases hgs
    refine ⟨by simp [kiteInit], ?_⟩
    intro a ha
    simp only [kiteInit, List.mem_singleton] at ha
    subst ha
    decide)

/-- C125 for the two triangles, in any order of the electrons and for any number of steps. -/
example (init' : List KitePart) (hi : init'.Perm [kitePart 1 (-1/2) 0 1 1, kitePart 1 (-3/4) 0 (-3) 1, kitePart 1 (1/2) 0 (-1) 0]) (n : Nat) :
    ∃ s s', CppLoop.run kiteCppCfg (some kiteInit) n kiteCppState = .ok s ∧ CppLoop.run kiteCppCfg (some [("e", init')]) n kiteCppState = .ok s' ∧
      s'.count = s.count ∧ s'.time = s.time ∧ s'.solver.phi = s.solver.phi ∧
      List.Forall₂ (fun sp sp' => sp'.name = sp.name ∧ ∃ xs xs', CStores sp.sap xs ∧ CStores sp'.sap xs' ∧ xs'.Perm xs) s.sps s'.sps := by
  obtain ⟨i0, is, hr⟩ := kiteCpp_runs n
  refine C125_program (le_refl 2) (le_refl 2) kiteCpp_every kiteCpp_every kiteCpp_mesh kiteCpp_mesh ⟨rfl, rfl, rfl, rfl, rfl, rfl, rfl, rfl, rfl⟩
    kiteCpp_memoryless rfl (skip := 2) (skip' := 2) (by decide) (by decide) kiteCpp_fresh kiteCpp_fresh (by simp [kiteCppState]) (by simp [kiteCppState]) hr
    (by simp [kiteCppIdeal]) rfl rfl (List.forall₂_same.2 fun _ _ => ⟨rfl, rfl, rfl, rfl, .refl _⟩) (by simp [kiteCppIdeal]) fun name => ?_
  simp only [given, kiteInit, Option.getD_some, List.flatMap_cons, List.flatMap_nil, List.append_nil]
  split
  · exact hi
  · exact .refl _

end Demo

end Dt
