import Verif.Spec.Permute
import Verif.Props.Order
import Verif.Props.ElementsLoop

/-!
# The order of the particles on any mesh (C124)
-/

set_option linter.unusedSectionVars false

namespace Dt
open Spec TimeLoop
variable {K V α σ φ : Type} [Field K] [LinearOrder K] [IsStrictOrderedRing K]

section
omit [Field K] [LinearOrder K] [IsStrictOrderedRing K]

theorem oblivious_of {adv : Adv σ α}
    (h : ∀ st st' i i' o o' b b' q, (adv st i o b q).toOption.map (·.2) = (adv st' i' o' b' q).toOption.map (·.2)) : Oblivious adv := by
  rcases isEmpty_or_nonempty σ with he | ⟨⟨st0⟩⟩
  · exact ⟨fun _ => none, fun st => (he.false st).elim⟩
  · exact ⟨fun q => (adv st0 0 0 false q).toOption.map (·.2), fun st i o b q => h _ _ _ _ _ _ _ _ _⟩

/-- The particle after the step, if it is still there. -/
def surviving (f : α → Option (α × Bool)) (q : α) : Option α :=
  match f q with
  | some (y, true) => some y
  | _ => none

theorem pass_oblivious {adv : Adv σ α} {f : α → Option (α × Bool)}
    (hf : ∀ st i o b q, (adv st i o b q).toOption.map (·.2) = f q) (xs : List α) (st : σ) (i o : Nat) :
    (∀ r, pass adv st i o xs = .ok r → (∀ x ∈ xs, ∃ r, f x = some r) ∧ r.2 = xs.filterMap (surviving f)) ∧
    ((∀ x ∈ xs, ∃ r, f x = some r) → ∃ r, pass adv st i o xs = .ok r) := by
  induction xs generalizing st i o with
  | nil =>
    refine ⟨fun r hr => ?_, fun _ => ⟨_, rfl⟩⟩
    simp only [pass, Except.ok.injEq] at hr
    subst hr
    simp
  | cons x xs ih =>
    have hx := hf st i o (decide (o ≠ i)) x
    unfold pass
    cases e : adv st i o (decide (o ≠ i)) x with
    | error a =>
      rw [e] at hx
      refine ⟨fun r hr => (by cases hr), fun h => ?_⟩
      obtain ⟨r, hr⟩ := h x (by simp)
      rw [hr] at hx
      cases hx
    | ok t =>
      obtain ⟨st', y, k⟩ := t
      rw [e] at hx
      have hx : f x = some (y, k) := hx.symm
      cases k with
      | false =>
        dsimp only
        obtain ⟨i1, i2⟩ := ih st' (i + 1) o
        refine ⟨fun r hr => ?_, fun h => i2 fun z hz => h z (by simp [hz])⟩
        obtain ⟨j1, j2⟩ := i1 r hr
        refine ⟨fun z hz => ?_, ?_⟩
        · rcases List.mem_cons.1 hz with rfl | hz
          · exact ⟨_, hx⟩
          · exact j1 z hz
        · rw [j2, List.filterMap_cons]
          simp [surviving, hx]
      | true =>
        dsimp only
        obtain ⟨i1, i2⟩ := ih st' (i + 1) (o + 1)
        refine ⟨fun r hr => ?_, fun h => ?_⟩
        · cases e2 : pass adv st' (i + 1) (o + 1) xs with
          | error a => rw [e2] at hr; cases hr
          | ok t =>
            rw [e2] at hr
            cases hr
            obtain ⟨j1, j2⟩ := i1 t e2
            refine ⟨fun z hz => ?_, ?_⟩
            · rcases List.mem_cons.1 hz with rfl | hz
              · exact ⟨_, hx⟩
              · exact j1 z hz
            · dsimp only
              rw [j2, List.filterMap_cons]
              simp [surviving, hx]
        · obtain ⟨r, hr⟩ := i2 fun z hz => h z (by simp [hz])
          rw [hr]
          exact ⟨_, rfl⟩

theorem perm_looked {l l' : List (Pop K V α)} (h : Permuted l l') : Permuted (l.map looked) (l'.map looked) := by
  unfold Permuted
  simp only [List.forall₂_map_left_iff, List.forall₂_map_right_iff]
  exact h.imp fun _ _ k => k

theorem perm_onMesh {l l' : List (Pop K V α)} (h : Permuted l l') (onMesh : α → Bool) :
    l'.all (fun p => p.st.items.all onMesh) = l.all (fun p => p.st.items.all onMesh) := by
  induction h with
  | nil => rfl
  | cons hs _ ih =>
    rw [List.all_cons, List.all_cons, ih]
    congr 1
    rw [Bool.eq_iff_iff, List.all_eq_true, List.all_eq_true]
    exact ⟨fun h q hq => h q (hs.2.2.2.2.mem_iff.2 hq), fun h q hq => h q (hs.2.2.2.2.mem_iff.1 hq)⟩

end

theorem permuted_names {l l' : List (Pop K V α)} (h : Permuted l l') : l'.map (·.name) = l.map (·.name) :=
  forall₂_names h (fun _ _ k => k.1)

theorem perm_charge {cfg : Cfg K V α σ φ} {l l' : List (Pop K V α)} (h : Permuted l l') (j : Nat) :
    chargeAt cfg l' j = chargeAt cfg l j := by
  unfold chargeAt
  induction h with
  | nil => rfl
  | cons hs _ ih =>
    rw [List.map_cons, List.map_cons, List.sum_cons, List.sum_cons, ih, hs.2.1, (hs.2.2.2.2.map _).sum_eq]

theorem perm_potential {cfg cfg' : Cfg K V α σ φ} (hp : SamePhysics cfg cfg') {l l' : List (Pop K V α)} (h : Permuted l l')
    (D : Nat) : potential cfg' D l' = potential cfg D l := by
  unfold potential
  rw [hp.solve, hp.bc, hp.factor]
  congr 2
  refine List.map_congr_left fun j _ => ?_
  congr 1
  rw [← perm_charge h j]
  unfold chargeAt
  rw [hp.A, hp.SD]

/-- The same particles and the same potential. -/
def Spec.SameUpToOrder (i i' : Ideal K V α σ) : Prop :=
  i'.count = i.count ∧ i'.time = i.time ∧ i'.phi = i.phi ∧ Permuted i.pops i'.pops

theorem movePop_oblivious {mv : String → Adv σ α} (hmv : ∀ sn, Oblivious (mv sn)) {p : Pop K V α} :
    ∃ (g : α → Option α) (ok : α → Prop), ∀ (xs : List α) (st : Bool) (sl : Nat) (side : σ),
      (∀ r, movePop sl mv { p with st := ⟨xs, st⟩ } side = .ok r →
        r.1.name = p.name ∧ r.1.charge = p.charge ∧ r.1.mass = p.mass ∧ r.1.index = p.index ∧
        r.1.st.items = xs.filterMap g ∧ (∀ x ∈ xs, ok x) ∧ (xs ≠ [] → xs.filterMap g ≠ [])) ∧
      ((∀ x ∈ xs, ok x) → (xs ≠ [] → xs.filterMap g ≠ []) → ∃ r, movePop sl mv { p with st := ⟨xs, st⟩ } side = .ok r) := by
  by_cases hc : p.charge = 0
  · refine ⟨some, fun _ => True, fun xs st sl side => ⟨fun r hr => ?_, fun _ _ => ?_⟩⟩
    · unfold movePop at hr
      rw [if_pos (Or.inl hc)] at hr
      cases hr
      simp
    · unfold movePop
      rw [if_pos (Or.inl hc)]
      exact ⟨_, rfl⟩
  · obtain ⟨f, hf⟩ := hmv p.name
    refine ⟨surviving f, fun x => ∃ r, f x = some r, fun xs st sl side => ?_⟩
    by_cases hx : xs = []
    · subst hx
      refine ⟨fun r hr => ?_, fun _ _ => ?_⟩
      · unfold movePop at hr
        rw [if_pos (Or.inr rfl)] at hr
        cases hr
        simp
      · unfold movePop
        rw [if_pos (Or.inr rfl)]
        exact ⟨_, rfl⟩
    · obtain ⟨a1, a2⟩ := pass_oblivious hf xs side 0 0
      have hne : ¬ (p.charge = 0 ∨ xs = []) := fun h => h.elim hc hx
      refine ⟨fun r hr => ?_, fun h1 h2 => ?_⟩
      · unfold movePop at hr
        rw [if_neg hne] at hr
        dsimp only at hr
        split at hr
        · cases hr
        · cases hr
        · rename_i side' y ys e
          cases hr
          obtain ⟨b1, b2⟩ := a1 _ e
          dsimp only at b2
          exact ⟨rfl, rfl, rfl, rfl, b2, b1, fun _ => by rw [← b2]; simp⟩
      · obtain ⟨r, hr⟩ := a2 h1
        obtain ⟨b1, b2⟩ := a1 r hr
        unfold movePop
        rw [if_neg hne]
        dsimp only
        rw [hr]
        obtain ⟨side', ys⟩ := r
        cases ys with
        | nil => exact absurd b2.symm (h2 hx)
        | cons y ys => exact ⟨_, rfl⟩

theorem moveAll_perm {sl sl' : Nat} {mv : String → Adv σ α} (hmv : ∀ sn, Oblivious (mv sn)) {l l' : List (Pop K V α)}
    (h : Permuted l l') {side side' : σ} {r : List (Pop K V α) × σ} (hr : moveAll sl mv l side = .ok r) :
    r.1.map (·.name) = l.map (·.name) ∧ ∃ r', moveAll sl' mv l' side' = .ok r' ∧ Permuted r.1 r'.1 := by
  unfold Permuted at h
  induction h generalizing side side' r with
  | nil =>
    simp only [Spec.moveAll, Except.ok.injEq] at hr
    subst hr
    exact ⟨rfl, _, rfl, .nil⟩
  | @cons s s' l l' hs _ ih =>
    simp only [Spec.moveAll] at hr
    split at hr
    · cases hr
    · rename_i p1 side1 e1
      split at hr
      · cases hr
      · rename_i ps1 side2 e2
        cases hr
        obtain ⟨g, ok, hg⟩ := movePop_oblivious hmv (p := s)
        obtain ⟨c1, c2, c3, c4, c5, c6, c7⟩ := (hg s.st.items s.st.stale sl side).1 _ e1
        obtain ⟨n1, n2, n3, n4, n5⟩ := hs
        have es : s' = { s with st := ⟨s'.st.items, s'.st.stale⟩ } := by
          obtain ⟨a, b, c, d, e⟩ := s'
          dsimp only at n1 n2 n3 n4
          subst n1 n2 n3 n4
          rfl
        have hp := n5.filterMap g
        obtain ⟨q, hq⟩ := (hg s'.st.items s'.st.stale sl' side').2 (fun x hx => c6 x (n5.mem_iff.1 hx)) (fun hne h0 => by
          rw [h0] at hp
          exact c7 (fun h => hne (by rw [h] at n5; exact n5.eq_nil)) hp.nil_eq.symm)
        obtain ⟨d1, d2, d3, d4, d5, d6, d7⟩ := (hg s'.st.items s'.st.stale sl' side').1 _ hq
        rw [← es] at hq
        obtain ⟨i1, r', i2, i3⟩ := ih (side' := q.2) e2
        dsimp only at c1 i1
        refine ⟨by simp [c1, i1], (q.1 :: r'.1, r'.2), ?_, .cons ⟨?_, ?_, ?_, ?_, ?_⟩ i3⟩
        · simp only [Spec.moveAll, hq, i2]
        · rw [d1, c1]
        · rw [d2, c2]
        · rw [d3, c3]
        · rw [d4, c4]
        · rw [d5, c5]; exact hp

section
variable {cfg cfg' : Cfg K V α σ φ} {sl sl' D : Nat} {onMesh : α → Bool}

theorem settle_perm (hp : SamePhysics cfg cfg') {l l' : List (Pop K V α)} (h : Permuted l l') {count : Int} {time : K}
    {side side' : σ} {j : Ideal K V α σ} (hj : settle cfg D onMesh count time l side = .ok j) :
    ∃ j', settle cfg' D onMesh count time l' side' = .ok j' ∧ SameUpToOrder j j' := by
  unfold settle at hj ⊢
  rw [perm_onMesh h]
  split at hj
  · rename_i ho
    rw [if_pos ho]
    cases hj
    exact ⟨_, rfl, rfl, rfl, perm_potential hp h D, perm_looked h⟩
  · cases hj

/-- C124.  One step of two simulations with the same particles in different orders: the same particles, with all their
attributes, and the same potential. -/
theorem C124_step (hp : SamePhysics cfg cfg') (hmv : ∀ sn f count time, Oblivious (cfg.move sn f count time))
    (hst : ∀ s ∈ cfg.sources, Steady s) {i i' j j' : Ideal K V α σ} (hn : (i.pops.map (·.name)).Nodup)
    (hi : SameUpToOrder i i') (h : i.step cfg sl D onMesh = .ok j) (h' : i'.step cfg' sl' D onMesh = .ok j') :
    SameUpToOrder j j' := by
  obtain ⟨e1, e2, e3, e4⟩ := hi
  unfold Ideal.step at h h'
  dsimp only at h h'
  rw [hp.move, hp.fieldOf, hp.dt, hp.sources, e1, e2, e3] at h'
  split at h
  · cases h
  · rename_i ps side hmo
    obtain ⟨a1, r', a2, a3⟩ := moveAll_perm (sl' := sl') (side' := i'.side) (fun sn => hmv sn _ _ _) e4 hmo
    rw [a2] at h'
    dsimp only at h' a1 a3
    split at h
    · cases h
    · rename_i ps1 side1 hcr
      split at h'
      · cases h'
      · rename_i ps1' side1' hcr'
        have b := createAll_at (a1 ▸ hn) hcr
        have b' := createAll_at (by rw [permuted_names a3, a1]; exact hn) hcr'
        have hperm : Permuted ps1 ps1' := by
          clear hcr hcr' h h' a1 a2 hmo
          unfold Permuted at a3 ⊢
          generalize r'.1 = l' at a3 b'
          induction a3 generalizing ps1 ps1' with
          | nil => cases b; cases b'; exact .nil
          | cons hs _ ih =>
            cases b with
            | cons b1 b2 =>
            cases b' with
            | cons b1' b2' =>
            refine .cons ?_ (ih _ _ b2 b2')
            obtain ⟨e1, e2, e3, e4, e5⟩ := hs
            obtain ⟨f1, f2, f3, f4, f5⟩ := b1
            obtain ⟨g1, g2, g3, g4, g5⟩ := b1'
            refine ⟨by rw [g1, f1, e1], by rw [g2, f2, e2], by rw [g3, f3, e3], by rw [g4, f4, e4], ?_⟩
            rw [f5, g5, e1, created_steady _ _ _ hst r'.2 side]
            exact e5.append_right _
        obtain ⟨k, hk, hs⟩ := settle_perm hp hperm (side' := side1') h
        rw [hk] at h'
        cases h'
        exact hs

theorem step_names {i j : Ideal K V α σ} (hmv : ∀ sn f count time, Oblivious (cfg.move sn f count time))
    (hn : (i.pops.map (·.name)).Nodup) (h : i.step cfg sl D onMesh = .ok j) : j.pops.map (·.name) = i.pops.map (·.name) := by
  unfold Ideal.step at h
  dsimp only at h
  split at h
  · cases h
  · rename_i ps side hmo
    obtain ⟨a1, -⟩ := moveAll_perm (sl' := sl) (side' := i.side) (fun sn => hmv sn _ _ _)
      (show Permuted i.pops i.pops from List.forall₂_same.2 fun _ _ => ⟨rfl, rfl, rfl, rfl, .refl _⟩) hmo
    dsimp only at a1
    split at h
    · cases h
    · rename_i ps1 side1 hcr
      have b := forall₂_names (createAll_at (a1 ▸ hn) hcr) (fun _ _ k => k.1)
      unfold settle at h
      split at h
      · cases h
        rw [← a1, ← b]
        simp [looked]
      · cases h

theorem run_split {init : Option (List (String × List α))} {b : List K} {n : Nat} {i i0 : Ideal K V α σ} {is : List (Ideal K V α σ)} :
    Ideal.run cfg sl D onMesh init b n i = .ok (i0, is) ↔
      i.start cfg sl D onMesh init b = .ok i0 ∧ Ideal.steps cfg sl D onMesh n i0 = .ok is := by
  unfold Ideal.run
  constructor
  · intro hr
    split at hr
    · cases hr
    · rename_i h1
      split at hr
      · cases hr
      · rename_i h2
        cases hr
        exact ⟨h1, h2⟩
  · rintro ⟨h1, h2⟩
    rw [h1]
    dsimp only
    rw [h2]

theorem steps_perm (hp : SamePhysics cfg cfg') (hmv : ∀ sn f count time, Oblivious (cfg.move sn f count time))
    (hst : ∀ s ∈ cfg.sources, Steady s) (n : Nat) {i i' : Ideal K V α σ} {is is' : List (Ideal K V α σ)}
    (hn : (i.pops.map (·.name)).Nodup) (hi : SameUpToOrder i i')
    (h : Ideal.steps cfg sl D onMesh n i = .ok is) (h' : Ideal.steps cfg' sl' D onMesh n i' = .ok is') :
    List.Forall₂ SameUpToOrder (i :: is) (i' :: is') := by
  induction n generalizing i i' is is' with
  | zero =>
    simp only [Ideal.steps, Except.ok.injEq] at h h'
    subst h h'
    exact .cons hi .nil
  | succ n ih =>
    simp only [Ideal.steps] at h h'
    split at h
    · cases h
    · rename_i j hj
      split at h
      · cases h
      · rename_i js hjs
        cases h
        split at h'
        · cases h'
        · rename_i j' hj'
          split at h'
          · cases h'
          · rename_i js' hjs'
            cases h'
            exact .cons hi (ih (by rw [step_names hmv hn hj]; exact hn) (C124_step hp hmv hst hn hi hj hj') hjs hjs')

theorem start_perm (hp : SamePhysics cfg cfg') {init init' : List (String × List α)} {b b' : List K} {i i' i0 i0' : Ideal K V α σ}
    (hn : (i.pops.map (·.name)).Nodup) (hc : i'.count = i.count) (ht : i'.time = i.time) (hpo : Permuted i.pops i'.pops)
    (hg : ∀ name, (given (some init') name).Perm (given (some init) name))
    (h : i.start cfg sl D onMesh (some init) b = .ok i0) (h' : i'.start cfg' sl' D onMesh (some init') b' = .ok i0') :
    SameUpToOrder i0 i0' := by
  obtain ⟨a1, a2, a3⟩ := start_all hn h
  obtain ⟨a1', a2', a3'⟩ := start_all (by rw [permuted_names hpo]; exact hn) h'
  have h0 : Permuted i0.pops i0'.pops := by
    clear h h' hn hc ht
    unfold Permuted at hpo ⊢
    generalize i.pops = l at hpo a3
    generalize i'.pops = l' at hpo a3'
    generalize i0.pops = m at a3
    generalize i0'.pops = m' at a3'
    induction hpo generalizing m m' with
    | nil => cases a3; cases a3'; exact .nil
    | @cons s s' l l' hss _ ih =>
      cases a3 with
      | cons b1 b2 =>
      cases a3' with
      | cons c1 c2 =>
      refine .cons ?_ (ih _ b2 _ c2)
      obtain ⟨e1, e2, e3, e4, e5⟩ := hss
      obtain ⟨f1, f2, f3, f4, f5⟩ := b1
      obtain ⟨g1, g2, g3, g4, g5⟩ := c1
      refine ⟨by rw [g1, f1, e1], by rw [g2, f2, e2], by rw [g3, f3, e3], by rw [g4, f4, e4], ?_⟩
      rw [f5, g5, e1]
      exact e5.append (hg _)
  refine ⟨by rw [a1, a1', hc], by rw [a2, a2', ht], ?_, h0⟩
  simp only [Ideal.start] at h h'
  split at h
  · cases h
  · split at h'
    · cases h'
    · unfold settle at h h'
      split at h
      · cases h
        split at h'
        · cases h'
          refine perm_potential hp ?_ D
          unfold Permuted at h0 ⊢
          simp only [List.forall₂_map_left_iff, List.forall₂_map_right_iff] at h0
          exact h0.imp fun _ _ k => k
        · cases h'
      · cases h

/-- C124.  Two simulations that differ in the order of the initial particles, the length of the segments of the
containers, the output intervals, the histories and the files: after each step the same particles, with all their
attributes, and the same potential.  Any mesh, any dimension, any field solver. -/
theorem C124_run (hp : SamePhysics cfg cfg') (hmv : ∀ sn f count time, Oblivious (cfg.move sn f count time))
    (hst : ∀ s ∈ cfg.sources, Steady s) {init init' : List (String × List α)} {b b' : List K} {n : Nat}
    {i i' i0 i0' : Ideal K V α σ} {is is' : List (Ideal K V α σ)}
    (hr : Ideal.run cfg sl D onMesh (some init) b n i = .ok (i0, is))
    (hr' : Ideal.run cfg' sl' D onMesh (some init') b' n i' = .ok (i0', is'))
    (hn : (i.pops.map (·.name)).Nodup) (hc : i'.count = i.count) (ht : i'.time = i.time) (hpo : Permuted i.pops i'.pops)
    (hg : ∀ name, (given (some init') name).Perm (given (some init) name)) :
    List.Forall₂ SameUpToOrder (i0 :: is) (i0' :: is') := by
  obtain ⟨s1, s2⟩ := run_split.1 hr
  obtain ⟨s1', s2'⟩ := run_split.1 hr'
  have hn0 : (i0.pops.map (·.name)).Nodup := by
    rw [forall₂_names (start_all hn s1).2.2 (fun _ _ k => k.1)]
    exact hn
  exact steps_perm hp hmv hst n hn0 (start_perm hp hn hc ht hpo hg s1 s1') s2 s2'

theorem steps_fate (hp : SamePhysics cfg cfg') (hmv : ∀ sn f count time, Oblivious (cfg.move sn f count time))
    (hst : cfg.sources = []) (n : Nat) {i i' : Ideal K V α σ} {is : List (Ideal K V α σ)}
    (hn : (i.pops.map (·.name)).Nodup) (hi : SameUpToOrder i i')
    (h : Ideal.steps cfg sl D onMesh n i = .ok is) : ∃ is', Ideal.steps cfg' sl' D onMesh n i' = .ok is' := by
  induction n generalizing i i' is with
  | zero => exact ⟨_, rfl⟩
  | succ n ih =>
    simp only [Ideal.steps] at h
    split at h
    · cases h
    · rename_i j hj
      split at h
      · cases h
      · rename_i js hjs
        cases h
        have hstep : ∃ j', i'.step cfg' sl' D onMesh = .ok j' := by
          obtain ⟨e1, e2, e3, e4⟩ := hi
          unfold Ideal.step at hj ⊢
          dsimp only at hj ⊢
          rw [hp.move, hp.fieldOf, hp.dt, hp.sources, e1, e2, e3]
          split at hj
          · cases hj
          · rename_i ps side hmo
            obtain ⟨a1, r', a2, a3⟩ := moveAll_perm (sl' := sl') (side' := i'.side) (fun sn => hmv sn _ _ _) e4 hmo
            rw [a2]
            rw [hst] at hj ⊢
            simp only [createAll] at hj ⊢
            obtain ⟨j', hj', -⟩ := settle_perm hp a3 (side' := r'.2) hj
            exact ⟨j', hj'⟩
        obtain ⟨j', hj'⟩ := hstep
        obtain ⟨is', h'⟩ := ih (i' := j') (by rw [step_names hmv hn hj]; exact hn)
          (C124_step hp hmv (by rw [hst]; intro s hs; cases hs) hn hi hj hj') hjs
        refine ⟨j' :: is', ?_⟩
        simp only [Ideal.steps, hj', h']

theorem appendAll_fresh (xs : List α) {st : LState α} (h : st.stale = false) :
    st.appendAll sl xs = .ok ⟨st.items ++ xs, false⟩ := by
  induction xs generalizing st with
  | nil =>
    obtain ⟨a, c⟩ := st
    cases h
    simp [LState.appendAll]
  | cons x xs ih =>
    simp only [LState.appendAll, h]
    rw [if_neg (by simp), ih rfl]
    simp

theorem appendGroups_fresh (gs : List (String × List α)) {ps : List (Pop K V α)} (h : ∀ p ∈ ps, p.st.stale = false)
    (hk : ∀ g ∈ gs, g.1 ∈ ps.map (·.name)) : ∃ ps', Spec.appendGroups sl gs ps = .ok ps' := by
  have key : ∀ (name : String) (xs : List α) (ps : List (Pop K V α)), (∀ p ∈ ps, p.st.stale = false) → name ∈ ps.map (·.name) →
      ∃ ps', Spec.appendTo sl name xs ps = .ok ps' ∧ (∀ p ∈ ps', p.st.stale = false) ∧ ps'.map (·.name) = ps.map (·.name) := by
    intro name xs ps
    induction ps with
    | nil => intro _ h; cases h
    | cons p ps ih =>
      intro h hk
      simp only [Spec.appendTo]
      by_cases he : p.name = name
      · rw [if_pos he, appendAll_fresh xs (h p (by simp))]
        refine ⟨_, rfl, fun q hq => ?_, rfl⟩
        rcases List.mem_cons.1 hq with rfl | hq
        · rfl
        · exact h q (by simp [hq])
      · rw [if_neg he]
        obtain ⟨ps', e, h1, h2⟩ := ih (fun q hq => h q (by simp [hq])) (by
          rcases List.mem_cons.1 hk with hk | hk
          · exact absurd hk.symm he
          · exact hk)
        rw [e]
        refine ⟨_, rfl, fun q hq => ?_, by simp [h2]⟩
        rcases List.mem_cons.1 hq with rfl | hq
        · exact h q (by simp)
        · exact h1 q hq
  induction gs generalizing ps with
  | nil => exact ⟨_, rfl⟩
  | cons g gs ih =>
    obtain ⟨ps1, e, h1, h2⟩ := key g.1 g.2 ps h (hk g (by simp))
    simp only [Spec.appendGroups, e]
    exact ih h1 fun g' hg' => by rw [h2]; exact hk g' (by simp [hg'])

/-- C124.  Without sources the order of the initial particles does not decide whether the simulation runs, either. -/
theorem C124_runs (hp : SamePhysics cfg cfg') (hmv : ∀ sn f count time, Oblivious (cfg.move sn f count time))
    (hst : cfg.sources = []) {init init' : List (String × List α)} {b b' : List K} {n : Nat}
    {i i' i0 : Ideal K V α σ} {is : List (Ideal K V α σ)}
    (hr : Ideal.run cfg sl D onMesh (some init) b n i = .ok (i0, is))
    (hn : (i.pops.map (·.name)).Nodup) (hc : i'.count = i.count) (ht : i'.time = i.time) (hpo : Permuted i.pops i'.pops)
    (hfr : ∀ p ∈ i'.pops, p.st.stale = false) (hk : ∀ g ∈ init', g.1 ∈ i'.pops.map (·.name))
    (hg : ∀ name, (given (some init') name).Perm (given (some init) name)) :
    ∃ i0' is', Ideal.run cfg' sl' D onMesh (some init') b' n i' = .ok (i0', is') ∧
      List.Forall₂ SameUpToOrder (i0 :: is) (i0' :: is') := by
  obtain ⟨s1, s2⟩ := run_split.1 hr
  have hn0 : (i0.pops.map (·.name)).Nodup := by
    rw [forall₂_names (start_all hn s1).2.2 (fun _ _ k => k.1)]
    exact hn
  have hs : ∃ i0', i'.start cfg' sl' D onMesh (some init') b' = .ok i0' := by
    obtain ⟨ps', e⟩ := appendGroups_fresh (sl := sl') init' hfr hk
    have a3 := (start_all hn s1).2.2
    have key : ∀ p' ∈ ps', p'.st.items.all onMesh = true := by
      -- the particles are those of the first simulation
      have s1 := s1
      simp only [Ideal.start] at s1
      split at s1
      · cases s1
      · rename_i ps e1
        unfold settle at s1
        split at s1
        · rename_i ho
          have hq : ∃ j, (i'.start cfg' sl' D (fun _ => true) (some init') b' = .ok j) ∧ j.pops = ps'.map looked := by
            refine ⟨⟨i'.count, i'.time, ps'.map looked, i'.side, potential cfg' D ps'⟩, ?_, rfl⟩
            simp only [Ideal.start, e, settle]
            rw [if_pos (by simp)]
          obtain ⟨j, hj, hjp⟩ := hq
          have hq1 : i.start cfg sl D (fun _ => true) (some init) b = .ok i0 := by
            simp only [Ideal.start, e1, settle]
            rw [if_pos (by simp)]
            exact s1
          have hperm := (start_perm hp hn hc ht hpo hg hq1 hj).2.2.2
          have h2 := perm_onMesh hperm onMesh
          cases s1
          rw [hjp] at h2
          simp only [List.all_map] at h2
          have h3 : (ps'.all fun p => p.st.items.all onMesh) = true := by
            have h4 : (ps'.all fun p => p.st.items.all onMesh) = ps.all fun p => p.st.items.all onMesh := by
              simpa [Function.comp_def, looked] using h2
            rw [h4, ho]
          exact fun p' hp' => List.all_eq_true.1 h3 p' hp'
        · cases s1
    simp only [Ideal.start, e, settle]
    rw [if_pos (List.all_eq_true.2 key)]
    exact ⟨_, rfl⟩
  obtain ⟨i0', s1'⟩ := hs
  have h0 := start_perm hp hn hc ht hpo hg s1 s1'
  obtain ⟨is', s2'⟩ := steps_fate (sl' := sl') hp hmv hst n hn0 h0 s2
  exact ⟨i0', is', run_split.2 ⟨s1', s2'⟩, steps_perm hp hmv (by rw [hst]; intro s hs; cases hs) n hn0 h0 s2 s2'⟩

end

section
variable {g p : Nat} {τ ρ : Type}
omit [IsStrictOrderedRing K]

/-- A callback of which the effect on the particle does not depend on the user's state. -/
def Spec.MemorylessBC (bc : Int → τ → BCall K g p ρ → Except Err (τ × Part K p ρ)) : Prop :=
  ∀ value st st' c, (bc value st c).map (·.2) = (bc value st' c).map (·.2)

/-- The loop variables without the user's state and the shared move vector. -/
def bare (s : Trk K p τ ρ) : Trk K p Unit ρ := ⟨(), s.part, s.cell, s.last, s.count, s.tStart, s.rem, 0, s.events⟩

theorem nextCell_bare (c : Cell K g) (cFacet : Int) {s s' : Trk K p τ ρ} (h : bare s = bare s') :
    (nextCell c cFacet s).map (fun r => (bare r.1, r.2)) = (nextCell c cFacet s').map (fun r => (bare r.1, r.2)) := by
  obtain ⟨st, part, cell, last, count, tStart, rem, dxS, events⟩ := s
  obtain ⟨st', part', cell', last', count', tStart', rem', dxS', events'⟩ := s'
  simp only [bare, Trk.mk.injEq, true_and] at h
  obtain ⟨rfl, rfl, rfl, rfl, rfl, rfl, rfl⟩ := h
  unfold nextCell
  cases pyGet c.neighbors cFacet with
  | error e => rfl
  | ok new =>
    simp only [bind, Except.bind, pure, Except.pure]
    split
    · split <;> rfl
    · rfl

theorem atMarked_bare {v : Variant} {bc : Int → τ → BCall K g p ρ → Except Err (τ × Part K p ρ)} (hbc : MemorylessBC bc) (value : Int)
    (f : K) (n : Option (Vec K g)) (mFacet : Int) {s s' : Trk K p τ ρ} (h : bare s = bare s') (hd : s.dxS = s'.dxS) :
    (atMarked v bc value f n mFacet s).map bare = (atMarked v bc value f n mFacet s').map bare := by
  obtain ⟨st, part, cell, last, count, tStart, rem, dxS, events⟩ := s
  obtain ⟨st', part', cell', last', count', tStart', rem', dxS', events'⟩ := s'
  simp only [bare, Trk.mk.injEq, true_and] at h
  obtain ⟨rfl, rfl, rfl, rfl, rfl, rfl, rfl⟩ := h
  dsimp only at hd
  subst hd
  have hb := hbc value st st' ⟨part, mFacet, f, n, dxS⟩
  have hc : crossEvents v (⟨st, part, cell, last, count, tStart, rem, dxS, events⟩ : Trk K p τ ρ) =
      crossEvents v ⟨st', part, cell, last, count, tStart, rem, dxS, events⟩ := rfl
  unfold atMarked
  rw [hc]
  cases crossEvents v (⟨st', part, cell, last, count, tStart, rem, dxS, events⟩ : Trk K p τ ρ) with
  | error e => rfl
  | ok evs =>
    simp only [bind, Except.bind, pure, Except.pure]
    cases e1 : bc value st ⟨part, mFacet, f, n, dxS⟩ with
    | error e =>
      rw [e1] at hb
      cases e2 : bc value st' ⟨part, mFacet, f, n, dxS⟩ with
      | error e' => rw [e2] at hb; exact congrArg _ (by cases hb; rfl)
      | ok r => rw [e2] at hb; cases hb
    | ok r =>
      rw [e1] at hb
      cases e2 : bc value st' ⟨part, mFacet, f, n, dxS⟩ with
      | error e' => rw [e2] at hb; cases hb
      | ok r' =>
        rw [e2] at hb
        have : r.2 = r'.2 := by simpa [Except.map] using hb
        simp only [Except.map, bare, this]

theorem crossOnce_bare (hgp : g ≤ p) (M : Mesh K g) {v : Variant} (hv : v.sharesDx = true)
    {bc : Int → τ → BCall K g p ρ → Except Err (τ × Part K p ρ)} (hbc : MemorylessBC bc) {s s' : Trk K p τ ρ} (h : bare s = bare s') :
    (crossOnce hgp M v bc s).map (fun r => (bare r.1, r.2)) = (crossOnce hgp M v bc s').map (fun r => (bare r.1, r.2)) := by
  obtain ⟨st, part, cell, last, count, tStart, rem, dxS, events⟩ := s
  obtain ⟨st', part', cell', last', count', tStart', rem', dxS', events'⟩ := s'
  simp only [bare, Trk.mk.injEq, true_and] at h
  obtain ⟨rfl, rfl, rfl, rfl, rfl, rfl, rfl⟩ := h
  unfold crossOnce
  simp only [hv, if_true]
  cases M.findFacet (proj hgp part.x0) (proj hgp (part.x - part.x0)) cell with
  | error e => rfl
  | ok r =>
    obtain ⟨cFacet, f, n⟩ := r
    simp only [bind, Except.bind]
    split
    · rfl
    · cases M.lookup cell with
      | error e => rfl
      | ok c =>
        dsimp only
        cases pyGet c.facets cFacet with
        | error e => rfl
        | ok mFacet =>
          dsimp only
          split
          · rfl
          · split
            · have key := atMarked_bare (v := v) hbc (M.marker mFacet) f n mFacet
                (s := ⟨st, { part with x0 := part.x0 + f • (part.x - part.x0) }, cell, mFacet, count + 1, tStart + f * rem, rem - f * rem, part.x - part.x0, events⟩)
                (s' := ⟨st', { part with x0 := part.x0 + f • (part.x - part.x0) }, cell, mFacet, count + 1, tStart + f * rem, rem - f * rem, part.x - part.x0, events⟩) rfl rfl
              split
              · rename_i e he
                rw [he] at key
                split
                · rename_i e' he'
                  rw [he'] at key
                  simp only [Except.map, Except.error.injEq] at key ⊢
                  exact key
                · rename_i t ht
                  rw [ht] at key
                  cases key
              · rename_i t ht
                rw [ht] at key
                split
                · rename_i e' he'
                  rw [he'] at key
                  cases key
                · rename_i t' ht'
                  rw [ht'] at key
                  exact nextCell_bare c cFacet (by simpa [Except.map] using key)
            · exact nextCell_bare c cFacet rfl

theorem track_bare (hgp : g ≤ p) (M : Mesh K g) {v : Variant} (hv : v.sharesDx = true)
    {bc : Int → τ → BCall K g p ρ → Except Err (τ × Part K p ρ)} (hbc : MemorylessBC bc) (left : Nat) {s s' : Trk K p τ ρ}
    (h : bare s = bare s') : (track hgp M v bc left s).map bare = (track hgp M v bc left s').map bare := by
  induction left generalizing s s' with
  | zero =>
    have e1 : s.part = s'.part := congrArg (fun t => t.part) h
    have e2 : s.cell = s'.cell := congrArg (fun t => t.cell) h
    unfold track
    rw [e1, e2]
    cases M.isInside (proj hgp s'.part.x) s'.cell with
    | error e => rfl
    | ok b =>
      cases b with
      | true => exact congrArg Except.ok h
      | false => rfl
  | succ left ih =>
    have e1 : s.part = s'.part := congrArg (fun t => t.part) h
    have e2 : s.cell = s'.cell := congrArg (fun t => t.cell) h
    have key := crossOnce_bare hgp M hv hbc h
    unfold track
    rw [e1, e2]
    cases M.isInside (proj hgp s'.part.x) s'.cell with
    | error e => rfl
    | ok b =>
      cases b with
      | true => exact congrArg Except.ok h
      | false =>
        simp only [bind, Except.bind, Bool.false_eq_true, if_false]
        cases e1 : crossOnce hgp M v bc s with
        | error e =>
          rw [e1] at key
          cases e2 : crossOnce hgp M v bc s' with
          | error e' => rw [e2] at key; exact congrArg _ (by cases key; rfl)
          | ok r => rw [e2] at key; cases key
        | ok r =>
          rw [e1] at key
          cases e2 : crossOnce hgp M v bc s' with
          | error e' => rw [e2] at key; cases key
          | ok r' =>
            rw [e2] at key
            simp only [Except.map, Except.ok.injEq, Prod.mk.injEq] at key
            dsimp only
            rw [key.2]
            split
            · exact congrArg Except.ok key.1
            · exact ih key.1

theorem toOption_map {A B : Type} {r r' : Except Err (A × B)} (h : r.map (·.2) = r'.map (·.2)) :
    r.toOption.map (·.2) = r'.toOption.map (·.2) := by
  cases r <;> cases r' <;> simp_all [Except.map, Except.toOption]

/-- C124.  The Python mover of charged particles treats each particle by itself if the callbacks do. -/
theorem C124_mover (hgp : g ≤ p) (M : Mesh K g) {bc : String → Int → τ → BCall K g p ρ → Except Err (τ × Part K p ρ)}
    (hbc : ∀ sn, MemorylessBC (bc sn)) (maxCross : Nat) (dt : K) (qom : String → K) (E : String → φ → Part K p ρ → Option (Vec K p))
    (sn : String) (f : φ) (count : Int) (time : K) : Oblivious (pyMove hgp M bc maxCross dt qom E sn f count time) := by
  refine oblivious_of fun st st' i i' o o' b b' q => ?_
  refine toOption_map ?_
  unfold pyMove plainAdv moveCharged
  have key := track_bare hgp M (v := .charged) rfl (hbc sn) maxCross
    (s := startTrk time dt st.1 st.2 (if false = true then accelerate (qom sn * dt) (E sn f q) q else moveBy dt (accelerate (qom sn * dt) (E sn f q) q)))
    (s' := startTrk time dt st'.1 st'.2 (if false = true then accelerate (qom sn * dt) (E sn f q) q else moveBy dt (accelerate (qom sn * dt) (E sn f q) q))) rfl
  simp only [bind, Except.bind, pure, Except.pure]
  split
  · rename_i e he
    split at he
    · rename_i e1 he1
      rw [he1] at key
      split
      · rename_i e' he'
        split at he'
        · rename_i e2 he2
          rw [he2] at key
          cases he; cases he'
          simp only [Except.map, Except.error.injEq] at key ⊢
          exact key
        · cases he'
      · rename_i t' he'
        split at he'
        · cases he'
        · rename_i s2 hs2
          rw [hs2] at key
          cases key
    · cases he
  · rename_i t he
    split at he
    · cases he
    · rename_i s1 hs1
      rw [hs1] at key
      cases he
      split
      · rename_i e' he'
        split at he'
        · rename_i e2 he2
          rw [he2] at key
          cases key
        · cases he'
      · rename_i t' he'
        split at he'
        · cases he'
        · rename_i s2 hs2
          rw [hs2] at key
          cases he'
          simp only [Except.map, Except.ok.injEq] at key
          have k1 : s1.part = s2.part := congrArg (fun t => t.part) key
          have k2 : s1.count = s2.count := congrArg (fun t => t.count) key
          simp only [Except.map, k1, k2]

end
theorem last_forall₂ {A : Type} {R : A → A → Prop} {a a' : A} {l l' : List A} (h : List.Forall₂ R (a :: l) (a' :: l')) :
    R (l.getLast?.getD a) (l'.getLast?.getD a') := by
  cases h with
  | cons h0 ht =>
    induction ht generalizing a a' with
    | nil => exact h0
    | @cons b b' l l' hb _ ih =>
      have := ih hb
      rwa [List.getLast?_cons, List.getLast?_cons, Option.getD_some, Option.getD_some]

theorem row_perm (w : α → K) (vel : List (α → K)) (qs : List Species.Quantity) {i i' : Ideal K V α σ} (h : SameUpToOrder i i') :
    rowOf w vel qs (i'.count, i'.time, i'.massed) = rowOf w vel qs (i.count, i.time, i.massed) := by
  obtain ⟨e1, e2, -, e4⟩ := h
  have hv : ∀ (q : Species.Quantity) (m : K) (xs ys : List α), ys.Perm xs →
      histValue w vel q (m, ys) = histValue w vel q (m, xs) := by
    intro q m xs ys hxy
    cases q with
    | count => simp [histValue, hxy.length_eq]
    | KE => simp only [histValue, kinetic, (hxy.map _).sum_eq]
    | other => rfl
  have key : ∀ q, histVals w vel q i'.massed = histVals w vel q i.massed := by
    intro q
    unfold Ideal.massed histVals
    unfold Permuted at e4
    generalize i.pops = l at e4
    generalize i'.pops = l' at e4
    have k1 : (l'.map (fun p => (p.mass, p.st.items))).map (histValue w vel q) = (l.map (fun p => (p.mass, p.st.items))).map (histValue w vel q) := by
      induction e4 with
      | nil => rfl
      | cons hs _ ih =>
        simp only [List.map_cons]
        rw [ih, hs.2.2.1, hv q _ _ _ hs.2.2.2.2]
    have k2 : (l'.map (fun p => (p.mass, p.st.items))).map (fun p => (histValue w vel q p, histValue w vel q p / max (Spec.number w p.2) 1)) =
        (l.map (fun p => (p.mass, p.st.items))).map (fun p => (histValue w vel q p, histValue w vel q p / max (Spec.number w p.2) 1)) := by
      clear k1
      induction e4 with
      | nil => rfl
      | cons hs _ ih =>
        simp only [List.map_cons]
        rw [ih, hs.2.2.1, hv q _ _ _ hs.2.2.2.2]
        simp only [Spec.number, (hs.2.2.2.2.map _).sum_eq]
    rw [k1, k2]
  simp only [rowOf, e1, e2, key]

/-- C124.  For the programs themselves: if the first ends normally (within the specification), so does the second, with
the same potential; the containers have the same particles; if the histories are of the same quantities, they have the
same rows. -/
theorem C124_program {cfg cfg' : Cfg K V α σ φ} {sl sl' D C C' : Nat} {onMesh : α → Bool} {d d' : Nat → Nat} (hc : GoodCfg cfg) (hc' : GoodCfg cfg')
    (hm : GoodMesh cfg onMesh d D C) (hm' : GoodMesh cfg' onMesh d' D C') (hp : SamePhysics cfg cfg')
    (hmv : ∀ sn f count time, Oblivious (cfg.move sn f count time)) (hst : cfg.sources = []) {z z' : Species.HRow K} {n : Nat}
    {init init' : List (String × List α)} {st st' : State K V α σ φ} {i i' i0 : Ideal K V α σ} {is : List (Ideal K V α σ)} {b b' : List K}
    (hf : Fresh sl D C n z st i b) (hf' : Fresh sl' D C' n z' st' i' b') (hw : st.writer = none → cfg.partEvery = none)
    (hw' : st'.writer = none → cfg'.partEvery = none) (hr : Ideal.run cfg sl D onMesh (some init) b n i = .ok (i0, is))
    (hn : (i.pops.map (·.name)).Nodup) (hco : i'.count = i.count) (ht : i'.time = i.time) (hpo : Permuted i.pops i'.pops)
    (hk : ∀ g ∈ init', g.1 ∈ i'.pops.map (·.name)) (hg : ∀ name, (given (some init') name).Perm (given (some init) name))
    (hq : cfg'.quantities = cfg.quantities) (hvel : cfg'.vel = cfg.vel) (hh : st'.hist.isSome = st.hist.isSome) :
    ∃ s s', run cfg (some init) n st = .ok s ∧ run cfg' (some init') n st' = .ok s' ∧
      s'.count = s.count ∧ s'.time = s.time ∧ s'.solver.phi = s.solver.phi ∧ s'.hist.map (·.rows) = s.hist.map (·.rows) ∧
      List.Forall₂ (fun sp sp' => sp'.name = sp.name ∧ ∃ xs xs', Stores sp.sap xs ∧ Stores sp'.sap xs' ∧ xs'.Perm xs) s.sps s'.sps := by
  obtain ⟨i0', is', hr', hall⟩ := C124_runs (sl' := sl') (b' := b') hp hmv hst hr hn hco ht hpo
    (fun p hp => by rw [hf'.empty p hp]) hk hg
  have k := C68_run hc hm n (some init) hf hw
  have k' := C68_run hc' hm' n (some init') hf' hw'
  rw [hr] at k
  rw [hr'] at k'
  obtain ⟨-, s, e, o⟩ := k
  obtain ⟨-, s', e', o'⟩ := k'
  obtain ⟨l1, l2, l3, l4⟩ := last_forall₂ hall
  refine ⟨s, s', e, e', ?_, ?_, ?_, ?_, ?_⟩
  · rw [o.count, o'.count]; exact l1
  · rw [o.time, o'.time]; exact l2
  · rw [o.phi, o'.phi]; exact l3
  · have hrows : (i0' :: is').map (fun i => rowOf cfg'.A.weight cfg'.vel cfg'.quantities (i.count, i.time, i.massed)) =
        (i0 :: is).map (fun i => rowOf cfg.A.weight cfg.vel cfg.quantities (i.count, i.time, i.massed)) := by
      rw [hq, hvel, hp.A]
      generalize i0 :: is = a at hall
      generalize i0' :: is' = a' at hall
      clear o o'
      induction hall with
      | nil => rfl
      | cons h0 _ ih => rw [List.map_cons, List.map_cons, ih, row_perm _ _ _ h0]
    cases e1 : st.hist with
    | none =>
      have e2 : st'.hist = none := by rw [e1] at hh; simpa using hh
      rw [o.noHist e1, o'.noHist e2]
    | some w =>
      have e2 : st'.hist.isSome = true := by rw [hh, e1]; rfl
      obtain ⟨x, x1, x2⟩ := o.hist (by rw [e1]; rfl)
      obtain ⟨y, y1, y2⟩ := o'.hist e2
      rw [x1, y1, Option.map_some, Option.map_some, x2, y2, hrows]
  · have p1 := o.particles
    have p2 := o'.particles
    unfold lastOf at p1 p2
    unfold Permuted at l4
    generalize (is.getLast?.getD i0).pops = m at l4 p1
    generalize (is'.getLast?.getD i0').pops = m' at l4 p2
    clear e e' o o'
    generalize s.sps = a at p1
    generalize s'.sps = a' at p2
    induction l4 generalizing a a' with
    | nil => cases p1; cases p2; exact .nil
    | cons hs _ ih =>
      cases p1 with
      | cons b1 b2 =>
      cases p2 with
      | cons c1 c2 =>
      exact .cons ⟨by rw [c1.1, b1.1, hs.1], _, _, b1.2, c1.2, hs.2.2.2.2⟩ (ih _ b2 _ c2)

section Demo

theorem kite_memoryless (sn : String) (f : List (Vec ℚ 2)) (count : Int) (time : ℚ) : Oblivious (kiteCfg.move sn f count time) := by
  have h : ∀ _ : String, MemorylessBC kiteSink := fun _ _ _ _ _ => rfl
  exact C124_mover (le_refl 2) kiteMesh h 10 (1 / 2) (fun _ => -1) (fun _ f q => (f[q.cell.toNat]?).map (fun e => -e)) sn f count time

theorem kite_both (init' : List KitePart) (hi : init'.Perm [kitePart 1 (-1/2) 0 1 1, kitePart 1 (-3/4) 0 (-3) 1, kitePart 1 (1/2) 0 (-1) 0]) (n : Nat)
    {r : Ideal ℚ ℚ KitePart (Unit × Vec ℚ 2) × List (Ideal ℚ ℚ KitePart (Unit × Vec ℚ 2))} (hr : kiteRun n = .ok r) :
    ∃ s s', run kiteCfg (some kiteInit) n (kiteState n) = .ok s ∧ run kiteCfg (some [("e", init')]) n (kiteState n) = .ok s' ∧
      s'.count = s.count ∧ s'.time = s.time ∧ s'.solver.phi = s.solver.phi ∧ s'.hist.map (·.rows) = s.hist.map (·.rows) ∧
      List.Forall₂ (fun sp sp' => sp'.name = sp.name ∧ ∃ xs xs', Stores sp.sap xs ∧ Stores sp'.sap xs' ∧ xs'.Perm xs) s.sps s'.sps := by
  obtain ⟨i0, is⟩ := r
  refine C124_program kite_goodCfg kite_goodCfg kite_goodMesh kite_goodMesh ⟨rfl, rfl, rfl, rfl, rfl, rfl, rfl, rfl, rfl⟩ kite_memoryless rfl
    (kite_fresh n) (kite_fresh n) (by simp [kiteState]) (by simp [kiteState]) hr (by simp [kiteIdeal]) rfl rfl
    (List.forall₂_same.2 fun _ _ => ⟨rfl, rfl, rfl, rfl, .refl _⟩) (by simp [kiteIdeal]) (fun name => ?_) rfl rfl rfl
  simp only [given, kiteInit, Option.getD_some, List.flatMap_cons, List.flatMap_nil, List.append_nil]
  split
  · exact hi
  · exact .refl _

/-- The hypothesis of `kite_both` holds for two steps, in each of which an electron leaves. -/
example : (kiteRun 2).toOption.isSome = true := by decide +kernel
example : ((kiteRun 2).toOption.map fun r => (lastOf r.1 r.2).pops.map fun p => p.st.items.length) = some [1] := by decide +kernel

end Demo

end Dt
