import Verif.Spec.CppTrack
import Verif.Lemmas.CppSAP
import Verif.Lemmas.CppPass
import Verif.Model.Traj
import Verif.Lemmas.Track
import Verif.Props.CppGeometry

set_option linter.unusedSectionVars false

namespace Dt
variable {K : Type} [Field K] [LinearOrder K] [IsStrictOrderedRing K] {g p : Nat} {τ ρ : Type}

theorem cppNormal_idx {c : CppCell K} {k : Int} {n : Vec K g} (e : cppNormal g c k = .ok n) :
    0 ≤ k := by
  unfold cppNormal at e
  split at e
  · assumption
  · cases e

/-- The facet returned by the compiled search is -1 or not negative. -/
theorem cppFindFacet_idx {c : CppCell K} {x0 dx : Vec K g} {k : Int} {f : K}
    {n : Option (Vec K g)} (e : cppFindFacet g c x0 dx = .ok (k, f, n)) : k = -1 ∨ 0 ≤ k := by
  unfold cppFindFacet at e
  split at e
  · split at e
    · cases e; exact .inl rfl
    · unfold cppFindFacet3 at e
      simp only [bind, Except.bind] at e
      repeat' split at e
      all_goals first | (cases e; done) | skip
      rename_i hn
      cases e
      exact .inr (cppNormal_idx hn)
  · split at e
    · cases e; exact .inl rfl
    · unfold cppFindFacet2 at e
      simp only [bind, Except.bind] at e
      repeat' split at e
      all_goals first | (cases e; done) | skip
      rename_i hn
      cases e
      exact .inr (cppNormal_idx hn)
  · split at e
    · cases e; exact .inl rfl
    · unfold cppFindFacet1 at e
      simp only [bind, Except.bind] at e
      repeat' split at e
      all_goals first | (cases e; done) | skip
      all_goals
        rename_i hn
        cases e
        exact .inr (cppNormal_idx hn)
  · cases e; exact .inl rfl

theorem fill_from {L : Layout K p} (hL : L.Right) (h : g ≤ p) (s : Scratch K) (x x0 : Vec K p) :
    (L.fill s x x0).from p g = proj h x0 := by
  funext i
  exact (hL s x x0 (Fin.castLE h i)).2.2

theorem fill_dx {L : Layout K p} (hL : L.Right) (s : Scratch K) (x x0 : Vec K p) :
    (fun i : Fin p => L.fill s x x0 i - L.fill s x x0 (L.off + i)) = x - x0 := by
  funext i
  rw [(hL s x x0 i).1, (hL s x x0 i).2.1]
  rfl

/-- The loop conditions agree. -/
theorem isInside_same {cm : CppMesh K} {M : Mesh K g} (ht : cm.Twin M) (h : g ≤ p) (x : Vec K p)
    (ci : Int) : SameOk (cm.isInside g x ci) (M.isInside (proj h x) ci) := by
  cases hc : M.cell ci with
  | none =>
    intro r
    unfold CppMesh.isInside Mesh.isInside CppMesh.lookup Mesh.lookup
    rw [hc, ht.none_ ci hc]
    simp [bind, Except.bind]
  | some c =>
    obtain ⟨hr, cc, hcc, tw⟩ := ht.cells ci c hc
    intro r
    have := C63_agree (point := List.ofFn x) hc hr tw.verts (p := proj h x) (by
      intro i
      have hi : i.1 < p := lt_of_lt_of_le i.2 h
      rw [List.getElem?_ofFn, dif_pos hi]
      rfl)
    unfold CppMesh.isInside CppMesh.lookup
    rw [hcc]
    simp only [bind, Except.bind]
    rw [this]

/-- What one crossing gives, without the scratch array. -/
theorem cross_same {cm : CppMesh K} {M : Mesh K g} (ht : cm.Twin M) (h : g ≤ p) {L : Layout K p}
    (hL : L.Right) {bcC bcP : Int → τ → BCall K g p ρ → Except Err (τ × Part K p ρ)}
    (hbc : ∀ v st c, SameOk (bcC v st c) (bcP v st c)) (sc : Scratch K) (s : Trk K p τ ρ)
    (r : Trk K p τ ρ × Bool) :
    (∃ sc', cppCrossOnce h L cm bcC sc s = .ok (r.1, r.2, sc')) ↔
      crossOnce h M .charged bcP s = .ok r := by
  unfold cppCrossOnce crossOnce
  have hdx : (fun i : Fin p => L.fill sc s.part.x s.part.x0 i -
      L.fill sc s.part.x s.part.x0 (L.off + i)) = s.part.x - s.part.x0 := fill_dx hL _ _ _
  simp only [hdx, fill_from hL h, bind, Except.bind]
  cases hc : M.cell s.cell with
  | none =>
    unfold CppMesh.lookup
    rw [ht.none_ _ hc]
    simp only [exists_false, false_iff, reduceCtorEq]
    cases hf : M.findFacet (proj h s.part.x0) (proj h (s.part.x - s.part.x0)) s.cell with
    | error _ => simp
    | ok q =>
      unfold Mesh.findFacet at hf
      split at hf
      · cases hf; simp [noFacet]
      · simp [Mesh.lookup, hc, bind, Except.bind] at hf
  | some c =>
    obtain ⟨hr, cc, hcc, tw⟩ := ht.cells _ c hc
    have hlook : cm.lookup s.cell = .ok cc := by simp [CppMesh.lookup, hcc]
    have hlook' : M.lookup s.cell = .ok c := by simp [Mesh.lookup, hc]
    simp only [hlook, hlook']
    have hex := C64_exact hc hr.dim hr.verts hr.normals tw.geo (proj h s.part.x0)
      (proj h (s.part.x - s.part.x0))
    cases hf : M.findFacet (proj h s.part.x0) (proj h (s.part.x - s.part.x0)) s.cell with
    | error e => rw [hf] at hex; rw [hex]; simp [cppReply]
    | ok q =>
      obtain ⟨k, f, n⟩ := q
      rw [hf] at hex
      by_cases hk : k = -1
      · subst hk
        simp only [cppReply, true_and] at hex
        simp only [noFacet, if_true, reduceCtorEq, iff_false, not_exists]
        intro sc'
        rw [hex]
        by_cases hs : dot (proj h (s.part.x - s.part.x0)) (proj h (s.part.x - s.part.x0)) = 0
        · simp [hs]
        · simp [hs]
      · have hex' : cppFindFacet g cc.geo (proj h s.part.x0) (proj h (s.part.x - s.part.x0)) =
            .ok (k, f, n) := by
          rw [hex]; simp only [cppReply]; rw [if_neg (by tauto)]
        have hk0 : 0 ≤ k := (cppFindFacet_idx hex').resolve_left hk
        rw [hex']
        simp only [noFacet, if_neg hk]
        rw [cGet_py _ hk0, tw.facets]
        cases hg : pyGet c.facets k with
        | error _ => simp
        | ok mf =>
          simp only
          by_cases hsame : mf = s.last
          · simp [hsame]
          · simp only [if_neg hsame, ht.marker]
            have hnext : ∀ t : Trk K p τ ρ, SameOk (cppNextCell cc k t) (nextCell c k t) := by
              intro t q
              unfold cppNextCell nextCell
              rw [cGet_py _ hk0, tw.neighbors]
              cases pyGet c.neighbors k <;> simp [bind, Except.bind]
            have hfin : ∀ t : Trk K p τ ρ,
                (∃ sc', (cppNextCell cc k t).bind
                    (fun v => pure (v.1, v.2, L.fill sc s.part.x s.part.x0)) =
                    (Except.ok (r.1, r.2, sc') : Except Err _)) ↔ nextCell c k t = .ok r := by
              intro t
              rw [← hnext t r]
              cases cppNextCell cc k t with
              | error _ => simp [Except.bind]
              | ok q =>
                simp only [Except.bind, pure, Except.pure, Except.ok.injEq, Prod.mk.injEq]
                constructor
                · rintro ⟨sc', h1, h2, -⟩
                  exact Prod.ext h1 h2
                · rintro rfl
                  exact ⟨_, rfl, rfl, rfl⟩
            have hx0 : (fun i : Fin p => s.part.x0 i + f * (L.fill sc s.part.x s.part.x0 i -
                L.fill sc s.part.x s.part.x0 (L.off + i))) =
                s.part.x0 + f • (s.part.x - s.part.x0) := by rw [← hdx]; rfl
            have hrem : (1 - f) * s.rem = s.rem - f * s.rem := by ring
            simp only [hx0, hrem, Variant.charged, if_true]
            simp only [Except.bind] at hfin
            by_cases hm : M.marker mf = 0
            · simp only [hm, ne_eq, not_true, if_false]
              exact hfin _
            · simp only [ne_eq, hm, not_false_iff, if_true]
              unfold cppAtMarked atMarked crossEvents
              simp only [bind, Except.bind, pure, Except.pure]
              have hev : ∀ b : Bool, ∀ X : List (Part K p ρ × K),
                  (if b then (Except.ok X : Except Err _) else .ok []) =
                    .ok (if b then X else []) := by
                intro b X; cases b <;> rfl
              simp only [hev]
              generalize (⟨{ s.part with x0 := s.part.x0 + f • (s.part.x - s.part.x0) }, mf, f, n,
                s.part.x - s.part.x0⟩ : BCall K g p ρ) = B
              have hb := hbc (M.marker mf) s.st B
              cases hC : bcC (M.marker mf) s.st B with
              | error e =>
                cases hP : bcP (M.marker mf) s.st B with
                | error e' => simp
                | ok q => have := (hb q).2 hP; rw [hC] at this; cases this
              | ok q =>
                have hP := (hb q).1 hC
                rw [hP]
                simp only
                exact hfin _

/-- The tracking loops agree. -/
theorem track_same {cm : CppMesh K} {M : Mesh K g} (ht : cm.Twin M) (h : g ≤ p) {L : Layout K p}
    (hL : L.Right) {bcC bcP : Int → τ → BCall K g p ρ → Except Err (τ × Part K p ρ)}
    (hbc : ∀ v st c, SameOk (bcC v st c) (bcP v st c)) (left : Nat) (sc : Scratch K)
    (s : Trk K p τ ρ) :
    SameOkFst (cppTrack h L cm bcC left sc s) (track h M .charged bcP left s) := by
  induction left generalizing sc s with
  | zero =>
    intro r
    unfold cppTrack track
    have hi := isInside_same ht h s.part.x s.cell
    simp only [bind, Except.bind]
    cases hC : cm.isInside g s.part.x s.cell with
    | error e =>
      cases hP : M.isInside (proj h s.part.x) s.cell with
      | error e' => simp
      | ok q => have := (hi q).2 hP; rw [hC] at this; cases this
    | ok q =>
      rw [(hi q).1 hC]
      cases q <;> simp
  | succ left ih =>
    intro r
    unfold cppTrack track
    have hi := isInside_same ht h s.part.x s.cell
    simp only [bind, Except.bind]
    cases hC : cm.isInside g s.part.x s.cell with
    | error e =>
      cases hP : M.isInside (proj h s.part.x) s.cell with
      | error e' => simp
      | ok q => have := (hi q).2 hP; rw [hC] at this; cases this
    | ok q =>
      rw [(hi q).1 hC]
      cases q
      · simp only [Bool.false_eq_true, if_false]
        have hx := fun r => cross_same ht h hL hbc sc s r
        cases hCC : cppCrossOnce h L cm bcC sc s with
        | error e =>
          cases hPP : crossOnce h M .charged bcP s with
          | error e' => simp
          | ok q =>
            obtain ⟨sc', e'⟩ := (hx q).2 hPP
            rw [hCC] at e'; cases e'
        | ok q =>
          obtain ⟨s1, brk, sc1⟩ := q
          rw [(hx (s1, brk)).1 ⟨sc1, hCC⟩]
          cases brk
          · simp only [Bool.false_eq_true, if_false]
            exact ih sc1 s1 r
          · simp
      · simp

end Dt

namespace Dt
open Spec
variable {K : Type} [Field K] [LinearOrder K] [IsStrictOrderedRing K] {g p : Nat} {τ ρ : Type}

/-! ### Simulation through a pass -/

section
variable {σ₁ σ₂ α β : Type} {R : σ₁ → σ₂ → Prop}

theorem Spec.Sim.ok {st1 : σ₁} {st2 : σ₂} (h : R st1 st2) (r : β) :
    Sim R (.ok (st1, r) : Except Err (σ₁ × β)) (.ok (st2, r)) :=
  ⟨fun s r' e => by cases e; exact ⟨st2, rfl, h⟩, fun s r' e => by cases e; exact ⟨st1, rfl, h⟩⟩

theorem Spec.Sim.err (e1 e2 : Err) :
    Sim R (.error e1 : Except Err (σ₁ × β)) (.error e2 : Except Err (σ₂ × β)) :=
  ⟨(fun _ _ e => nomatch e), (fun _ _ e => nomatch e)⟩

theorem Spec.Sim.cases {a : Except Err (σ₁ × β)} {b : Except Err (σ₂ × β)} (h : Sim R a b) :
    (∃ e1 e2, a = .error e1 ∧ b = .error e2) ∨
    ∃ st1 st2 r, a = .ok (st1, r) ∧ b = .ok (st2, r) ∧ R st1 st2 := by
  cases ha : a with
  | error e1 =>
    cases hb : b with
    | error e2 => exact .inl ⟨e1, e2, rfl, rfl⟩
    | ok q =>
      obtain ⟨st1, e, -⟩ := h.2 q.1 q.2 (by rw [hb])
      rw [ha] at e; cases e
  | ok q =>
    obtain ⟨st2, e, hr⟩ := h.1 q.1 q.2 (by rw [ha])
    rw [e]
    exact .inr ⟨q.1, st2, q.2, rfl, rfl, hr⟩

theorem pass_sim {adv1 : Adv σ₁ α} {adv2 : Adv σ₂ α}
    (h : ∀ st1 st2 i o ic x, R st1 st2 → Sim R (adv1 st1 i o ic x) (adv2 st2 i o ic x))
    (xs : List α) (st1 : σ₁) (st2 : σ₂) (i o : Nat) (hR : R st1 st2) :
    Sim R (pass adv1 st1 i o xs) (pass adv2 st2 i o xs) := by
  induction xs generalizing st1 st2 i o with
  | nil => exact .ok hR _
  | cons x xs ih =>
    simp only [pass]
    rcases (h st1 st2 i o (decide (o ≠ i)) x hR).cases with ⟨e1, e2, h1, h2⟩ | ⟨s1, s2, r, h1, h2, hr⟩
    · rw [h1, h2]; exact .err _ _
    · rw [h1, h2]
      obtain ⟨y, k⟩ := r
      cases k
      · exact ih _ _ _ _ hr
      · simp only
        rcases (ih s1 s2 (i + 1) (o + 1) hr).cases with ⟨e1, e2, h1, h2⟩ | ⟨t1, t2, r, h1, h2, hr⟩
        · rw [h1, h2]; exact .err _ _
        · rw [h1, h2]; exact .ok hr _

/-- Trajectory bookkeeping around two related cores. -/
theorem trajAdv_sim {δ T : Type} [Add T] {core1 : σ₁ → α → Except Err (σ₁ × α × List (α × T))}
    {core2 : σ₂ → α → Except Err (σ₂ × α × List (α × T))}
    (h : ∀ st1 st2 x, R st1 st2 → Sim R (core1 st1 x) (core2 st2 x)) (np : Nat)
    (ls : Option Int) (step : Int) (time dt : T) (isTraj isDel : α → Bool)
    (mkC mkF : Int → T → α → δ) :
    ∀ (st1 : σ₁ × TrajSp δ) (st2 : σ₂ × TrajSp δ) i o ic x,
      (R st1.1 st2.1 ∧ st1.2 = st2.2) →
      Sim (fun a b => R a.1 b.1 ∧ a.2 = b.2)
        (TrajSp.adv np ls step time dt isTraj isDel mkC mkF core1 st1 i o ic x)
        (TrajSp.adv np ls step time dt isTraj isDel mkC mkF core2 st2 i o ic x) := by
  rintro ⟨st1, t⟩ ⟨st2, t'⟩ i o ic x ⟨hR, ht⟩
  simp only at hR ht
  subst ht
  unfold TrajSp.adv
  simp only
  rcases (h st1 st2 x hR).cases with ⟨e1, e2, h1, h2⟩ | ⟨s1, s2, r, h1, h2, hr⟩
  · rw [h1, h2]; exact .err _ _
  · rw [h1, h2]
    obtain ⟨y, evs⟩ := r
    simp only [bind, Except.bind]
    split
    · exact .err _ _
    · split
      · split
        · exact .err _ _
        · exact .ok ⟨hr, rfl⟩ _
      · split
        · exact .err _ _
        · exact .ok ⟨hr, rfl⟩ _

theorem skip_sim {adv1 : Adv σ₁ α} {adv2 : Adv σ₂ α}
    (h : ∀ st1 st2 i o ic x, R st1 st2 → Sim R (adv1 st1 i o ic x) (adv2 st2 i o ic x))
    (skip : α → Bool) : ∀ st1 st2 i o ic x, R st1 st2 →
      Sim R (skipping skip adv1 st1 i o ic x) (skipping skip adv2 st2 i o ic x) := by
  intro st1 st2 i o ic x hR
  unfold skipping
  split
  · exact .ok hR _
  · exact h _ _ _ _ _ _ hR

end

/-! ### One particle -/

/-- The charged movers: user state and `dx` agree; the scratch array is unconstrained. -/
theorem moveCharged_sim {cm : CppMesh K} {M : Mesh K g} (ht : cm.Twin M) (h : g ≤ p)
    {L : Layout K p} (hL : L.Right)
    {bcC bcP : Int → τ → BCall K g p ρ → Except Err (τ × Part K p ρ)}
    (hbc : ∀ v st c, SameOk (bcC v st c) (bcP v st c)) (n : Nat) (time dt qmdt : K)
    (E : Part K p ρ → Option (Vec K p)) (st1 : (τ × Vec K p) × Scratch K) (st2 : τ × Vec K p)
    (q : Part K p ρ) (hst : st1.1 = st2) :
    Sim (fun a b => a.1 = b) (cppMoveCharged h L cm bcC n time dt qmdt E st1 q)
      (moveCharged h M .charged bcP n time dt qmdt false E st2 q) := by
  subst hst
  unfold cppMoveCharged moveCharged
  have hq : cppMoveBy dt (cppAccel qmdt (E q) q) = moveBy dt (accelerate qmdt (E q) q) := by
    unfold moveBy accelerate cppMoveBy cppAccel
    cases E q with
    | none =>
      simp only
      congr 1
      funext i
      simp [mul_comm]
    | some e =>
      simp only
      congr 1
      funext i
      simp only [Pi.add_apply, Pi.smul_apply, smul_eq_mul]
      ring
  simp only [Bool.false_eq_true, if_false]
  rw [hq]
  have hs := track_same ht h hL hbc n st1.2 (startTrk time dt st1.1.1 st1.1.2
    (moveBy dt (accelerate qmdt (E q) q)))
  simp only [bind, Except.bind, pure, Except.pure]
  cases hC : cppTrack h L cm bcC n st1.2 (startTrk time dt st1.1.1 st1.1.2
      (moveBy dt (accelerate qmdt (E q) q))) with
  | error e =>
    cases hP : track h M .charged bcP n (startTrk time dt st1.1.1 st1.1.2
        (moveBy dt (accelerate qmdt (E q) q))) with
    | error e' => exact .err _ _
    | ok r =>
      obtain ⟨x, e'⟩ := (hs r).2 hP
      rw [hC] at e'; cases e'
  | ok r =>
    have hP := (hs r.1).1 ⟨r.2, hC⟩
    rw [hP]
    exact Sim.ok (R := fun (a : (τ × Vec K p) × Scratch K) b => a.1 = b) rfl _

/-- Forget `self.dx`. -/
def noDx (s : Trk K p τ ρ) : Trk K p τ ρ := { s with dxS := 0 }

theorem cross_noDx {M : Mesh K g} (h : g ≤ p) {v w : Variant} (hv : v.datum = w.datum)
    {bc : Int → τ → BCall K g p ρ → Except Err (τ × Part K p ρ)}
    (hbc : ∀ value st c d, bc value st { c with dx := d } = bc value st c)
    {s t : Trk K p τ ρ} (hst : noDx s = noDx t) :
    (crossOnce h M v bc s).toOption.map (fun r => (noDx r.1, r.2)) =
      (crossOnce h M w bc t).toOption.map (fun r => (noDx r.1, r.2)) := by
  obtain ⟨st, part, cell, last, count, tStart, rem, dxS, events⟩ := s
  obtain ⟨st', part', cell', last', count', tStart', rem', dxS', events'⟩ := t
  simp only [noDx, Trk.mk.injEq] at hst
  obtain ⟨rfl, rfl, rfl, rfl, rfl, rfl, rfl, -, rfl⟩ := hst
  unfold crossOnce
  simp only [bind, Except.bind]
  cases M.findFacet (proj h part.x0) (proj h (part.x - part.x0)) cell with
  | error _ => rfl
  | ok q =>
    obtain ⟨k, f, n⟩ := q
    simp only
    split
    · rfl
    · cases M.lookup cell with
      | error _ => rfl
      | ok c =>
        simp only
        cases pyGet c.facets k with
        | error _ => rfl
        | ok mf =>
          simp only
          split
          · rfl
          · have hnext : ∀ (A : Trk K p τ ρ) (d : Vec K p),
                (nextCell c k { A with dxS := d }).toOption.map (fun r => (noDx r.1, r.2)) =
                (nextCell c k A).toOption.map (fun r => (noDx r.1, r.2)) := by
              intro A d
              unfold nextCell
              cases pyGet c.neighbors k with
              | error _ => rfl
              | ok new =>
                simp only [bind, Except.bind]
                split
                · split <;> rfl
                · rfl
            split
            · unfold atMarked crossEvents
              simp only [hv]
              have hb := fun d1 d2 => (hbc (M.marker mf) st
                ⟨{ part with x0 := part.x0 + f • (part.x - part.x0) }, mf, f, n, d1⟩ d2)
              have e1 := hb (if w.sharesDx then part.x - part.x0 else dxS')
                (if v.sharesDx then part.x - part.x0 else dxS)
              simp only at e1
              simp only [bind, Except.bind, pure, Except.pure]
              rw [e1]
              generalize bc (M.marker mf) st ⟨{ part with x0 := part.x0 + f • (part.x - part.x0) },
                mf, f, n, if w.sharesDx then part.x - part.x0 else dxS'⟩ = X
              have hN := fun (q : τ × Part K p ρ) (evs : List (Part K p ρ × K)) => hnext
                ⟨q.1, q.2, cell, mf, count + 1, tStart + f * rem, rem - f * rem,
                  if v.sharesDx then part.x - part.x0 else dxS, events ++ evs⟩
                (if w.sharesDx then part.x - part.x0 else dxS')
              by_cases hT : part.traj = true
              · simp only [hT, if_true] at hN ⊢
                cases w.datum with
                | error _ => rfl
                | ok _ =>
                  cases X with
                  | error _ => rfl
                  | ok q => exact (hN q _).symm
              · simp only [hT] at hN ⊢
                cases X with
                | error _ => rfl
                | ok q => exact (hN q _).symm
            · rw [← hnext _ (if w.sharesDx then part.x - part.x0 else dxS')]

theorem track_noDx {M : Mesh K g} (h : g ≤ p) {v w : Variant} (hv : v.datum = w.datum)
    {bc : Int → τ → BCall K g p ρ → Except Err (τ × Part K p ρ)}
    (hbc : ∀ value st c d, bc value st { c with dx := d } = bc value st c) (left : Nat)
    {s t : Trk K p τ ρ} (hst : noDx s = noDx t) :
    (track h M v bc left s).toOption.map noDx = (track h M w bc left t).toOption.map noDx := by
  induction left generalizing s t with
  | zero =>
    unfold track
    have hp : s.part = t.part := by have := congrArg Trk.part hst; exact this
    have hc : s.cell = t.cell := by have := congrArg Trk.cell hst; exact this
    rw [hp, hc]
    simp only [bind, Except.bind]
    cases M.isInside (proj h t.part.x) t.cell with
    | error _ => rfl
    | ok b => cases b <;> simp [Except.toOption, hst]
  | succ left ih =>
    unfold track
    have hp : s.part = t.part := by have := congrArg Trk.part hst; exact this
    have hc : s.cell = t.cell := by have := congrArg Trk.cell hst; exact this
    rw [hp, hc]
    simp only [bind, Except.bind]
    cases M.isInside (proj h t.part.x) t.cell with
    | error _ => rfl
    | ok b =>
      cases b
      · simp only [Bool.false_eq_true, if_false]
        have hx := cross_noDx h (M := M) hv hbc hst
        cases h1 : crossOnce h M v bc s with
        | error _ =>
          cases h2 : crossOnce h M w bc t with
          | error _ => rfl
          | ok q => rw [h1, h2] at hx; simp [Except.toOption] at hx
        | ok q =>
          cases h2 : crossOnce h M w bc t with
          | error _ => rw [h1, h2] at hx; simp [Except.toOption] at hx
          | ok q' =>
            rw [h1, h2] at hx
            simp only [Except.toOption, Option.map_some, Option.some.injEq, Prod.mk.injEq] at hx
            obtain ⟨hx1, hx2⟩ := hx
            simp only
            rw [hx2]
            cases q'.2
            · simp only [Bool.false_eq_true, if_false]
              exact ih hx1
            · simp [Except.toOption, hx1]
      · simp [Except.toOption, hst]

/-- The neutral movers, for callbacks that do not look at the move vector. -/
theorem moveNeutral_sim {cm : CppMesh K} {M : Mesh K g} (ht : cm.Twin M) (h : g ≤ p)
    {L : Layout K p} (hL : L.Right)
    {bcC bcP : Int → τ → BCall K g p ρ → Except Err (τ × Part K p ρ)}
    (hbc : ∀ v st c, SameOk (bcC v st c) (bcP v st c))
    (hdx : ∀ value st c d, bcP value st { c with dx := d } = bcP value st c)
    (n : Nat) (time dt : K) (st1 : (τ × Vec K p) × Scratch K) (st2 : τ × Vec K p)
    (q : Part K p ρ) (hst : st1.1.1 = st2.1) :
    Sim (fun a b => a.1.1 = b.1) (cppMoveNeutral h L cm bcC n time dt st1 q)
      (moveNeutral h M .neutral bcP n time dt st2 q) := by
  have h1 := moveCharged_sim ht h hL hbc n time dt 0 (fun _ => none) st1 st1.1 q rfl
  have hn := track_noDx (M := M) h (v := .charged) (w := .neutral) rfl hdx n
    (s := startTrk time dt st1.1.1 st1.1.2 (moveBy dt q))
    (t := startTrk time dt st2.1 st2.2 (moveBy dt q)) (by simp [noDx, startTrk, hst])
  unfold cppMoveNeutral
  have key : Sim (fun (a b : τ × Vec K p) => a.1 = b.1)
      (moveCharged h M .charged bcP n time dt 0 false (fun _ => none) st1.1 q)
      (moveNeutral h M .neutral bcP n time dt st2 q) := by
    unfold moveCharged moveNeutral
    simp only [Bool.false_eq_true, if_false, accelerate, bind, Except.bind, pure, Except.pure]
    cases h1 : track h M .charged bcP n (startTrk time dt st1.1.1 st1.1.2 (moveBy dt q)) with
    | error _ =>
      cases h2 : track h M .neutral bcP n (startTrk time dt st2.1 st2.2 (moveBy dt q)) with
      | error _ => exact .err _ _
      | ok q => rw [h1, h2] at hn; simp [Except.toOption] at hn
    | ok a =>
      cases h2 : track h M .neutral bcP n (startTrk time dt st2.1 st2.2 (moveBy dt q)) with
      | error _ => rw [h1, h2] at hn; simp [Except.toOption] at hn
      | ok b =>
        rw [h1, h2] at hn
        simp only [Except.toOption, Option.map_some, Option.some.injEq] at hn
        have e1 : a.st = b.st := by have := congrArg Trk.st hn; exact this
        have e2 : a.part = b.part := by have := congrArg Trk.part hn; exact this
        have e3 : a.count = b.count := by have := congrArg Trk.count hn; exact this
        have e4 : a.events = b.events := by have := congrArg Trk.events hn; exact this
        simp only [e2, e3, e4]
        exact Sim.ok (R := fun (a b : τ × Vec K p) => a.1 = b.1) e1 _
  rcases h1.cases with ⟨e1, e2, a, b⟩ | ⟨s1, s2, r, a, b, hr⟩
  · rw [a]
    rw [b] at key
    rcases key.cases with ⟨e3, e4, c, d⟩ | ⟨s3, s4, r, c, d, hr⟩
    · rw [d]; exact .err _ _
    · cases c
  · rw [a]
    rw [b] at key
    rcases key.cases with ⟨e3, e4, c, d⟩ | ⟨s3, s4, r', c, d, hr'⟩
    · cases c
    · rw [d]
      cases c
      exact .ok (by rw [hr]; exact hr') _

end Dt
