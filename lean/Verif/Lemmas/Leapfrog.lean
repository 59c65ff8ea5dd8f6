import Verif.Spec.Leapfrog
import Verif.Lemmas.LineCross
import Verif.Lemmas.TrackInv

/-! # Tracking with boundary conditions that only delete -/

set_option linter.unusedSectionVars false

namespace Dt
variable {K : Type} [Field K] [LinearOrder K] [IsStrictOrderedRing K] {g p : Nat} {τ ρ : Type}

omit [IsStrictOrderedRing K] in
theorem PlainBC.good {h : g ≤ p} {M : Mesh K g} {fresh : Prop}
    {bc : Int → τ → BCall K g p ρ → Except Err (τ × Part K p ρ)} (hb : PlainBC M bc) : GoodBC h M fresh bc :=
  ⟨hb.total, fun _ _ _ _ e => by rw [hb.only _ _ _ _ _ e], fun _ _ _ _ e _ => by rw [hb.only _ _ _ _ _ e],
    fun _ _ _ _ _ e hB _ _ _ => .inl (hb.boundary _ _ _ _ _ e hB)⟩

omit [IsStrictOrderedRing K] in
theorem PlainBC.keepsCell {M : Mesh K g}
    {bc : Int → τ → BCall K g p ρ → Except Err (τ × Part K p ρ)} (hb : PlainBC M bc) : KeepsCell bc :=
  fun _ _ _ _ _ e => by rw [hb.only _ _ _ _ _ e]

omit [IsStrictOrderedRing K] in
theorem PlainBC.absorbs {M : Mesh K g}
    {bc : Int → τ → BCall K g p ρ → Except Err (τ × Part K p ρ)} (hb : PlainBC M bc) : Absorbs M bc :=
  fun _ _ _ _ _ e hB => hb.boundary _ _ _ _ _ e hB

/-- Every facet has a vertex. -/
theorem exists_onFacet {c : Cell K g} (hr : c.Regular) {k : Nat} (hk : k ≤ g) :
    ∃ (j : Nat) (v : Vec K g), c.verts[j]? = some v ∧ onFacet g k j := by
  have hg := hr.dim
  have hv := hr.verts
  by_cases h1 : g = 1
  · exact ⟨k, c.verts[k]'(by omega), List.getElem?_eq_getElem _, by simp [onFacet, h1]⟩
  · by_cases h0 : k = 0
    · exact ⟨1, c.verts[1]'(by omega), List.getElem?_eq_getElem _, by simp [onFacet, h1, h0]⟩
    · exact ⟨0, c.verts[0]'(by omega), List.getElem?_eq_getElem _, by simp [onFacet, h1]; omega⟩

/-- What the tracking loop keeps. -/
structure Plainly (h : g ≤ p) (M : Mesh K g) (dom : Vec K g → Bool) (k : Vec K p × Vec K p × ρ)
    (s : Trk K p τ ρ) : Prop where
  kin : kin s.part = k
  live : s.part.del = false → Sound h M s
  gone : s.part.del = true → dom (proj h s.part.x) = false

theorem plainly_cross {h : g ≤ p} {M : Mesh K g} (hM : M.Conforming) {dom : Vec K g → Bool}
    (hd : M.Convex dom) {v : Variant} (hv : v.datum = .ok ())
    {bc : Int → τ → BCall K g p ρ → Except Err (τ × Part K p ρ)} (hb : PlainBC M bc)
    {k : Vec K p × Vec K p × ρ} {s s' : Trk K p τ ρ} {brk : Bool} (hs : Plainly h M dom k s)
    (hlive : s.part.del = false)
    (hout : M.isInside (proj h s.part.x) s.cell = .ok false) (e : crossOnce h M v bc s = .ok (s', brk)) :
    Plainly h M dom k s' ∧ s'.part.del = brk := by
  have hS := hs.live hlive
  obtain ⟨s2, brk2, e2, hs2⟩ := cross_sound hM hv hb.good hS hout
  rw [e] at e2
  cases e2
  obtain ⟨c, hcell, hx0, -⟩ := hS.ex
  have hr := hM.regular _ _ hcell
  have hnot := ((isInside_iff hcell hr _).2).1 hout
  have hdx : proj h (s.part.x - s.part.x0) ≠ 0 := by
    intro h0
    apply hnot
    have : proj h s.part.x = proj h s.part.x0 := by
      rw [proj_sub] at h0
      exact sub_eq_zero.1 h0
    rw [this]; exact hx0
  obtain ⟨facet, f, n, ef, hf, hn⟩ := findFacet_ok hcell hr hx0 hdx
  obtain ⟨cFacet, mFacet, new, f', n', c', st1, q, q1, evs, e1, hne, hcell', hm, -, hnew, hq, hev, -,
    -, -, -, -, -, -, hres⟩ := (crossOnce_ok e).ex
  rw [ef] at e1
  simp only [Except.ok.injEq, Prod.mk.injEq] at e1
  obtain ⟨rfl, rfl, rfl⟩ := e1
  rw [hcell] at hcell'
  cases hcell'
  obtain ⟨kk, rfl, hk, hf1, hpl, hpos⟩ := hf.some_ hne
  have hn' := hn hne
  rw [Int.toNat_natCast] at hn'
  have hq1 : q1 = { q with del := q1.del } := by
    split at hev
    · rw [hev.2.1]
    · exact hb.only _ _ _ _ _ hev.1
  have hkin : kin q1 = k := by
    rw [hq1, hq, ← hs.kin]; rfl
  by_cases hend : new = -1
  · rw [if_pos hend] at hres
    subst hend
    have hbd : M.Boundary mFacet n :=
      ⟨s.cell, _, kk, hcell, pyGet_some hm, pyGet_some hnew, hn'⟩
    have hdel : q1.del = true := by
      split at hev
      · rename_i hmk
        exact absurd hmk (hM.marked _ _ kk mFacet hcell (pyGet_some hnew) (pyGet_some hm))
      · exact hb.boundary _ ⟨q, mFacet, f, _, _⟩ _ _ n hev.1 hbd
    rw [hdel] at hres
    obtain ⟨hc1, hbrk, hp⟩ := hres
    have hx : s'.part.x = s.part.x := by
      rw [hp]
      simp only [if_true]
      rw [hq1, hq]
    have hde : s'.part.del = true := by
      rw [hp]
      simp only [if_true]
    refine ⟨⟨?_, fun h0 => (by rw [hde] at h0; cases h0), fun _ => ?_⟩, by rw [hde, hbrk]⟩
    · rw [hp]; exact hkin
    · rw [hx]
      cases hD : dom (proj h s.part.x) with
      | false => rfl
      | true =>
        exfalso
        obtain ⟨j, w, hw, hon⟩ := exists_onFacet hr hk
        have h1 := hd.behind _ _ kk hcell (pyGet_some hnew) _ hD n w j hn' hw hon
        have h2 := hpl n w j hn' hw hon
        have h3 := hpos n hn'
        have hsplit : proj h s.part.x - w = (proj h s.part.x0 + f • proj h (s.part.x - s.part.x0) - w) +
            (1 - f) • proj h (s.part.x - s.part.x0) := by
          funext i
          simp only [proj, Pi.add_apply, Pi.sub_apply, Pi.smul_apply, smul_eq_mul]
          ring
        rw [hsplit, dot_add, h2, dot_smul, zero_add] at h1
        have := mul_pos (by linarith : (0 : K) < 1 - f) h3
        linarith
  · rw [if_neg hend] at hres
    obtain ⟨hc1, hbrk, hp⟩ := hres
    have hdel : q1.del = false := by
      split at hev
      · rw [hev.2.1, hq]; exact hlive
      · rename_i hmk
        rw [hb.interior _ ⟨q, mFacet, f, _, _⟩ _ _ hev.1 hmk
          ⟨s.cell, _, kk, new, hcell, pyGet_some hm, pyGet_some hnew, hend⟩]
        simp only [hq]; exact hlive
    have hde : s'.part.del = false := by rw [hp]; exact hdel
    refine ⟨⟨?_, fun _ => hs2 hbrk, fun h0 => (by rw [hde] at h0; cases h0)⟩, by rw [hde, hbrk]⟩
    rw [hp]; exact hkin

/-- The result of the tracking: position and velocity are those of the free motion, and the particle
is marked for deletion exactly if it is outside the domain. -/
theorem plainly_track {h : g ≤ p} {M : Mesh K g} (hM : M.Conforming) {dom : Vec K g → Bool}
    (hd : M.Convex dom) {v : Variant} (hv : v.datum = .ok ())
    {bc : Int → τ → BCall K g p ρ → Except Err (τ × Part K p ρ)} (hb : PlainBC M bc)
    {k : Vec K p × Vec K p × ρ} (left : Nat) : ∀ {s s' : Trk K p τ ρ}, Plainly h M dom k s →
    s.part.del = false → track h M v bc left s = .ok s' →
    Plainly h M dom k s' ∧ s'.part.del = !dom (proj h s'.part.x) := by
  have inside : ∀ {s : Trk K p τ ρ}, Plainly h M dom k s → s.part.del = false →
      M.isInside (proj h s.part.x) s.cell = .ok true →
      Plainly h M dom k s ∧ s.part.del = !dom (proj h s.part.x) := by
    intro s hs hl hi
    refine ⟨hs, ?_⟩
    obtain ⟨c, hcell, -, -⟩ := (hs.live hl).ex
    rw [hd.cells _ _ _ hcell (((isInside_iff hcell (hM.regular _ _ hcell) _).1).1 hi), hl]
    rfl
  induction left with
  | zero =>
    intro s s' hs hl e
    unfold track at e
    cases hi : M.isInside (proj h s.part.x) s.cell with
    | error e' => rw [hi] at e; cases e
    | ok b =>
      rw [hi] at e
      cases b with
      | true =>
        simp only [bind, Except.bind, if_true, Except.ok.injEq] at e
        subst e
        exact inside hs hl hi
      | false => simp [bind, Except.bind] at e
  | succ left ih =>
    intro s s' hs hl e
    unfold track at e
    cases hi : M.isInside (proj h s.part.x) s.cell with
    | error e' => rw [hi] at e; cases e
    | ok b =>
      rw [hi] at e
      cases b with
      | true =>
        simp only [bind, Except.bind, if_true, Except.ok.injEq] at e
        subst e
        exact inside hs hl hi
      | false =>
        simp only [bind, Except.bind, Bool.false_eq_true, if_false] at e
        cases hc : crossOnce h M v bc s with
        | error e' => rw [hc] at e; cases e
        | ok r =>
          obtain ⟨s1, brk⟩ := r
          obtain ⟨h1, h2⟩ := plainly_cross hM hd hv hb hs hl hi hc
          rw [hc] at e
          simp only at e
          cases brk with
          | true =>
            simp only [if_true, Except.ok.injEq] at e
            subst e
            exact ⟨h1, by rw [h2, h1.gone h2]; rfl⟩
          | false =>
            simp only [Bool.false_eq_true, if_false] at e
            exact ih h1 h2 e

/-- The mesh on an interval is convex. -/
theorem lineMesh_convex {x : Nat → K} {N : Nat} {marker : Int → Int} (hx : ∀ i, i < N → x i < x (i + 1)) :
    (lineMesh x N marker).Convex (fun q => decide (x 0 ≤ q 0 ∧ q 0 ≤ x N)) := by
  have up : ∀ j i, i ≤ j → j ≤ N → x i ≤ x j := by
    intro j
    induction j with
    | zero => intro i hi _; rw [Nat.le_zero.1 hi]
    | succ j ih =>
      intro i hi hj
      rcases Nat.lt_or_ge i (j + 1) with h | h
      · exact (ih i (by omega) (by omega)).trans (hx j (by omega)).le
      · rw [show i = j + 1 by omega]
  refine ⟨?_, ?_⟩
  · intro ci c q hc hq
    obtain ⟨i, rfl, hi, rfl⟩ := lineMesh_cell hc
    rw [lineCell_has] at hq
    simp only [decide_eq_true_eq]
    exact ⟨(up i 0 (by omega) (by omega)).trans hq.1, hq.2.trans (up N (i + 1) (by omega) (le_refl _))⟩
  · intro ci c k hc hk q hq n w j hn hw hj
    obtain ⟨i, rfl, hi, rfl⟩ := lineMesh_cell hc
    simp only [decide_eq_true_eq] at hq
    simp only [onFacet, if_true] at hj
    subst hj
    rw [dot1]
    rcases j with _ | _ | j
    · simp only [lineCell, List.getElem?_cons_zero, Option.some.injEq] at hn hw hk
      subst hn hw
      have : i = 0 := by split at hk <;> omega
      subst this
      simp only [Pi.sub_apply, Matrix.cons_val_zero]; linarith
    · simp only [lineCell, Nat.zero_add, List.getElem?_cons_succ, List.getElem?_cons_zero,
        Option.some.injEq] at hn hw hk
      subst hn hw
      have : i + 1 = N := by split at hk <;> omega
      rw [this]
      simp only [Pi.sub_apply, Matrix.cons_val_zero]; linarith
    · simp [lineCell] at hn

end Dt
