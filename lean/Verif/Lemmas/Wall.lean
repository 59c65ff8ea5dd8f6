import Verif.Spec.Wall
import Verif.Lemmas.LineCross
import Verif.Lemmas.TrackInv

/-! # Tracking between two walls -/

set_option linter.unusedSectionVars false

namespace Dt
variable {K : Type} [Field K] [LinearOrder K] [IsStrictOrderedRing K] {τ ρ : Type}

section
variable {x : Nat → K} {N : Nat} {marker : Int → Int} {L R : Bool}
  {bc : Int → τ → BCall K 1 1 ρ → Except Err (τ × Part K 1 ρ)}

/-- The boundary facets of the interval. -/
theorem line_boundary {F : Int} {n : Vec K 1} (hB : (lineMesh x N marker).Boundary F n) :
    (F = 0 ∧ n = ![-1]) ∨ (F = N ∧ n = ![1]) := by
  obtain ⟨ci, c, k, hc, hF, hN, hn⟩ := hB
  obtain ⟨i, rfl, hi, rfl⟩ := lineMesh_cell hc
  rcases k with _ | _ | k
  · simp only [lineCell, List.getElem?_cons_zero, Option.some.injEq] at hF hN hn
    exact .inl ⟨by split at hN <;> omega, hn.symm⟩
  · simp only [lineCell, Nat.zero_add, List.getElem?_cons_succ, List.getElem?_cons_zero,
      Option.some.injEq] at hF hN hn
    exact .inr ⟨by split at hN <;> omega, hn.symm⟩
  · simp [lineCell] at hF

theorem line_interior {F : Int} (hI : (lineMesh x N marker).Interior F) : F ≠ 0 ∧ F ≠ N := by
  obtain ⟨ci, c, k, cj, hc, hF, hN, hcj⟩ := hI
  obtain ⟨i, rfl, hi, rfl⟩ := lineMesh_cell hc
  rcases k with _ | _ | k
  · simp only [lineCell, List.getElem?_cons_zero, Option.some.injEq] at hF hN
    constructor <;> split at hN <;> omega
  · simp only [lineCell, Nat.zero_add, List.getElem?_cons_succ, List.getElem?_cons_zero,
      Option.some.injEq] at hF hN
    constructor <;> split at hN <;> omega
  · simp [lineCell] at hF

/-- What such a callback does. -/
theorem WallBC.cases (hb : WallBC marker N L R bc) {st st' : τ} {call : BCall K 1 1 ρ} {q' : Part K 1 ρ}
    (e : bc (marker call.facet) st call = .ok (st', q')) :
    (call.facet = 0 ∧ ∃ s0, (if L then bcReflect s0 call else bcAbsorb s0 call) = .ok (st', q')) ∨
    (call.facet = N ∧ ∃ s0, (if R then bcReflect s0 call else bcAbsorb s0 call) = .ok (st', q')) ∨
    (call.facet ≠ 0 ∧ call.facet ≠ N ∧ q' = call.part) := by
  by_cases h0 : call.facet = 0
  · obtain ⟨s0, h1⟩ := hb.left st call h0
    rw [h0, h1] at e
    exact .inl ⟨h0, s0, e⟩
  · by_cases hN : call.facet = N
    · obtain ⟨s0, h1⟩ := hb.right st call hN
      rw [hN, h1] at e
      exact .inr (.inl ⟨hN, s0, e⟩)
    · rcases hb.other st call h0 hN with ⟨s0, h1⟩ | ⟨-, e', h1⟩
      swap
      · rw [h1] at e; cases e
      rw [h1] at e
      simp only [bcNothing, Except.ok.injEq, Prod.mk.injEq] at e
      exact .inr (.inr ⟨h0, hN, e.2.symm⟩)

theorem mirror_or_hole {B : Bool} {s0 st' : τ} {call : BCall K 1 1 ρ} {q' : Part K 1 ρ} {n : Vec K 1}
    (hn : call.normal = some n)
    (e : (if B then bcReflect s0 call else bcAbsorb s0 call) = .ok (st', q')) :
    (B = true ∧ q' = { call.part with
      x := call.part.x - (2 * dot n ((1 - call.frac) • call.dx)) • n
      u := call.part.u - (2 * dot n call.part.u) • n }) ∨
    (B = false ∧ q' = { call.part with del := true }) := by
  cases B with
  | true =>
    simp only [if_true, bcReflect, hn, Except.ok.injEq, Prod.mk.injEq] at e
    exact .inl ⟨rfl, e.2.symm⟩
  | false =>
    simp only [Bool.false_eq_true, if_false, bcAbsorb, Except.ok.injEq, Prod.mk.injEq] at e
    exact .inr ⟨rfl, e.2.symm⟩

theorem WallBC.good (hb : WallBC marker N L R bc) :
    GoodBC (le_refl 1) (lineMesh x N marker) True bc := by
  have tot : ∀ (B : Bool) (s0 : τ) (call : BCall K 1 1 ρ) n, call.normal = some n →
      ∃ r, (if B then bcReflect s0 call else bcAbsorb s0 call) = .ok r := by
    intro B s0 call n hn
    cases B with
    | true => simp only [if_true, bcReflect, hn]; exact ⟨_, rfl⟩
    | false => exact ⟨_, rfl⟩
  have st0 : ∀ (B : Bool) (s0 st' : τ) (call : BCall K 1 1 ρ) (q' : Part K 1 ρ),
      (if B then bcReflect s0 call else bcAbsorb s0 call) = .ok (st', q') → q'.x0 = call.part.x0 := by
    intro B s0 st' call q' e
    cases B with
    | true =>
      simp only [if_true, bcReflect] at e
      split at e
      · cases e
      · cases e; rfl
    | false => cases e; rfl
  refine ⟨?_, ?_, ?_, ?_⟩
  · intro st call n hn hm
    change ∃ r, bc (marker call.facet) st call = .ok r
    change marker call.facet ≠ 0 at hm
    by_cases h0 : call.facet = 0
    · obtain ⟨s0, h1⟩ := hb.left st call h0
      rw [h0, h1]; exact tot _ _ _ _ hn
    · by_cases hN : call.facet = N
      · obtain ⟨s0, h1⟩ := hb.right st call hN
        rw [hN, h1]; exact tot _ _ _ _ hn
      · rcases hb.other st call h0 hN with ⟨s0, h1⟩ | ⟨h1, -⟩
        · rw [h1]; exact ⟨_, rfl⟩
        · exact absurd h1 hm
  · intro st call st' q' e
    change bc (marker call.facet) st call = _ at e
    rcases hb.cases e with ⟨-, s0, e⟩ | ⟨-, s0, e⟩ | ⟨-, -, rfl⟩
    · exact st0 _ _ _ _ _ e
    · exact st0 _ _ _ _ _ e
    · rfl
  · intro st call st' q' e hI
    change bc (marker call.facet) st call = _ at e
    obtain ⟨hf0, hfN⟩ := line_interior hI
    rcases hb.cases e with ⟨h0, -⟩ | ⟨h0, -⟩ | ⟨-, -, rfl⟩
    · exact absurd h0 hf0
    · exact absurd h0 hfN
    · rfl
  · intro st call st' q' n e hB hn hf hpos
    change bc (marker call.facet) st call = _ at e
    have key : ∀ (B : Bool) (s0 : τ), n 0 * n 0 = 1 →
        (if B then bcReflect s0 call else bcAbsorb s0 call) = .ok (st', q') →
        q'.del = true ∨ dot n (proj (le_refl 1) (q'.x - q'.x0)) ≤ 0 := by
      intro B s0 hn1 e
      rcases mirror_or_hole hn e with ⟨-, rfl⟩ | ⟨-, rfl⟩
      · right
        rw [dot1] at hpos ⊢
        have h2 := congrFun (hf trivial) 0
        simp only [proj, Pi.sub_apply, Pi.smul_apply, smul_eq_mul, dot1] at hpos h2 ⊢
        change n 0 * (call.part.x 0 - call.part.x0 0) > 0 at hpos
        change n 0 * (call.part.x 0 - 2 * (n 0 * ((1 - call.frac) * call.dx 0)) * n 0 - call.part.x0 0) ≤ 0
        rw [← h2]
        have : n 0 * (call.part.x 0 - 2 * (n 0 * (call.part.x 0 - call.part.x0 0)) * n 0 - call.part.x0 0)
            = n 0 * (call.part.x 0 - call.part.x0 0) * (1 - 2 * (n 0 * n 0)) := by ring
        rw [this, hn1]
        linarith
      · exact .inl rfl
    rcases line_boundary hB with ⟨hF, rfl⟩ | ⟨hF, rfl⟩
    · obtain ⟨s0, h1⟩ := hb.left st call hF
      rw [hF, h1] at e
      exact key _ _ (by simp) e
    · obtain ⟨s0, h1⟩ := hb.right st call hF
      rw [hF, h1] at e
      exact key _ _ (by simp) e

/-- How a crossing changes a particle between two walls. -/
inductive WallCross (x : Nat → K) (N : Nat) (L R : Bool) (i : Nat) (s s' : Trk K 1 τ ρ) (brk : Bool) : Prop
  | inner (k : kin s'.part = kin s.part) (d : s'.part.del = false) (b : brk = false)
      (a : (0 < ahead (le_refl 1) s ∧ s'.cell = (i : Int) + 1 ∧ 0 < ahead (le_refl 1) s') ∨
        (ahead (le_refl 1) s < 0 ∧ s'.cell = (i : Int) - 1 ∧ ahead (le_refl 1) s' < 0))
  | leftMirror (hL : L = true) (hx : s.part.x 0 < x 0) (k : kin s'.part = mirrored (x 0) (kin s.part))
      (d : s'.part.del = false) (b : brk = false)
      (a : ahead (le_refl 1) s < 0 ∧ s'.cell = 0 ∧ i = 0 ∧ 0 < ahead (le_refl 1) s')
  | leftHole (hL : L = false) (hx : s.part.x 0 < x 0) (k : kin s'.part = kin s.part)
      (d : s'.part.del = true) (b : brk = true)
  | rightMirror (hR : R = true) (hx : x N < s.part.x 0) (k : kin s'.part = mirrored (x N) (kin s.part))
      (d : s'.part.del = false) (b : brk = false)
      (a : 0 < ahead (le_refl 1) s ∧ s'.cell = (i : Int) ∧ i + 1 = N ∧ ahead (le_refl 1) s' < 0)
  | rightHole (hR : R = false) (hx : x N < s.part.x 0) (k : kin s'.part = kin s.part)
      (d : s'.part.del = true) (b : brk = true)

theorem wall_cross (hM : (lineMesh x N marker).Conforming) {v : Variant} (hv : v.sharesDx = true)
    (hb : WallBC marker N L R bc) {s s' : Trk K 1 τ ρ} {brk : Bool} {i : Nat} (hi : s.cell = i)
    (hs : Sound (le_refl 1) (lineMesh x N marker) s) (hlive : s.part.del = false)
    (hout : (lineMesh x N marker).isInside (proj (le_refl 1) s.part.x) s.cell = .ok false)
    (e : crossOnce (le_refl 1) (lineMesh x N marker) v bc s = .ok (s', brk)) :
    WallCross x N L R i s s' brk := by
  obtain ⟨c, hcell, hx0, -⟩ := hs.ex
  have hr := hM.regular _ _ hcell
  have hnot := ((isInside_iff hcell hr _).2).1 hout
  have hdx : proj (le_refl 1) (s.part.x - s.part.x0) ≠ 0 := by
    intro h0
    apply hnot
    have : proj (le_refl 1) s.part.x = proj (le_refl 1) s.part.x0 := by
      rw [proj_sub] at h0
      exact sub_eq_zero.1 h0
    rw [this]; exact hx0
  obtain ⟨facet, f, n, ef, hf, hn⟩ := findFacet_ok hcell hr hx0 hdx
  obtain ⟨cFacet, mFacet, new, f', n', c', st1, q, q1, evs, e1, hne, hcell', hm, -, hnew, hq, hev, -,
    -, -, -, -, -, -, hres⟩ := (crossOnce_ok e).ex
  rw [ef] at e1
  simp only [Except.ok.injEq, Prod.mk.injEq] at e1
  obtain ⟨rfl, rfl, rfl⟩ := e1
  rw [hcell] at hcell'
  cases hcell'
  obtain ⟨kk, rfl, hk, hf1, hpl, hpos⟩ := hf.some_ hne
  have hn' := hn hne
  rw [Int.toNat_natCast] at hn'
  obtain ⟨j, hj, hjN, rfl⟩ := lineMesh_cell hcell
  have hij : j = i := by omega
  subst hij
  have hm' := pyGet_some hm
  have hnew' := pyGet_some hnew
  have hpos' := hpos n hn'
  rw [dot1] at hpos'
  have hff : 0 < 1 - f := by linarith
  have hsplit : s.part.x 0 = (s.part.x0 0 + f * (s.part.x 0 - s.part.x0 0)) +
      (1 - f) * (s.part.x 0 - s.part.x0 0) := by ring
  have hinner : (mFacet ≠ 0 ∧ mFacet ≠ (N : Int)) → q1 = q := by
    rintro ⟨h0, hN⟩
    split at hev
    · exact hev.2.1
    · rcases hb.cases (call := ⟨q, mFacet, f, _, _⟩) hev.1 with ⟨h1, -⟩ | ⟨h1, -⟩ | ⟨-, -, h1⟩
      · exact absurd h1 h0
      · exact absurd h1 hN
      · exact h1
  rcases kk with _ | _ | kk
  · simp only [lineCell, List.getElem?_cons_zero, Option.some.injEq] at hn' hm' hnew'
    subst hn'
    have hD : s.part.x 0 - s.part.x0 0 < 0 := by
      simp only [Matrix.cons_val_zero] at hpos'
      change 0 < -1 * (s.part.x 0 - s.part.x0 0) at hpos'
      linarith
    have hpt : s.part.x0 0 + f * (s.part.x 0 - s.part.x0 0) = x j := by
      have := hpl _ _ 0 rfl rfl (by simp [onFacet])
      rw [dot1] at this
      simp only [Pi.sub_apply, Pi.add_apply, Pi.smul_apply, smul_eq_mul, Matrix.cons_val_zero] at this
      change -1 * (s.part.x0 0 + f * (s.part.x 0 - s.part.x0 0) - x j) = 0 at this
      linarith
    have hah : ahead (le_refl 1) s < 0 := hD
    have hlt : s.part.x 0 < x j := by
      rw [hsplit, hpt]
      linarith [mul_neg_of_pos_of_neg hff hD]
    by_cases hj0 : j = 0
    · subst hj0
      rw [if_pos rfl] at hnew'
      subst hnew'
      rw [if_pos rfl] at hres
      have hF : mFacet = 0 := by omega
      subst hF
      have hmk : (lineMesh x N marker).marker 0 ≠ 0 := hM.marked _ _ 0 0 hcell (by simp [lineCell]) (by simp [lineCell])
      rw [if_neg hmk] at hev
      rcases hb.cases (call := ⟨q, 0, f, _, _⟩) hev.1 with ⟨-, s0, h1⟩ | ⟨h1, -⟩ | ⟨h1, -, -⟩
      · rcases mirror_or_hole (n := ![-1]) rfl h1 with ⟨hL, h2⟩ | ⟨hL, h2⟩
        · have hd : q1.del = false := by rw [h2, hq]; exact hlive
          rw [hd] at hres
          obtain ⟨hc1, hbrk, hp⟩ := hres
          simp only [Bool.false_eq_true, if_false] at hp
          have hx1 : q1.x = fun _ => 2 * x 0 - s.part.x 0 := by
            rw [h2, hq]
            funext a
            rw [Subsingleton.elim a 0]
            simp only [if_pos hv, dot1, Pi.sub_apply, Pi.smul_apply, smul_eq_mul, Matrix.cons_val_zero]
            rw [← hpt]
            ring
          have hu1 : q1.u = -s.part.u := by
            rw [h2, hq]
            funext a
            rw [Subsingleton.elim a 0]
            simp only [dot1, Pi.sub_apply, Pi.smul_apply, smul_eq_mul, Matrix.cons_val_zero, Pi.neg_apply]
            ring
          have hr1 : q1.rest = s.part.rest := by rw [h2, hq]
          refine .leftMirror hL hlt ?_ (by rw [hp]; exact hd) hbrk ⟨hah, by rw [hc1]; exact hi, rfl, ?_⟩
          · rw [hp]
            simp only [kin, mirrored, hx1, hu1, hr1]
          · unfold ahead
            rw [hp]
            have h00 : q1.x0 0 = x 0 := by rw [h2, hq]; exact hpt
            simp only [proj, Pi.sub_apply]
            change 0 < q1.x 0 - q1.x0 0
            rw [hx1, h00]
            linarith
        · have hd : q1.del = true := by rw [h2]
          rw [hd] at hres
          obtain ⟨hc1, hbrk, hp⟩ := hres
          simp only [if_true] at hp
          refine .leftHole hL hlt ?_ (by rw [hp]) hbrk
          rw [hp, h2, hq]; rfl
      · exfalso; simp only at h1; omega
      · exact absurd rfl h1
    · rw [if_neg hj0] at hnew'
      rw [if_neg (by omega)] at hres
      obtain ⟨hc1, hbrk, hp⟩ := hres
      have h1 := hinner ⟨by omega, by omega⟩
      have hah' : ahead (le_refl 1) s' = (1 - f) * ahead (le_refl 1) s := by
        unfold ahead
        rw [hp, h1, hq]
        simp only [proj, Pi.sub_apply, Pi.add_apply, Pi.smul_apply, smul_eq_mul]
        ring
      refine .inner ?_ ?_ hbrk (.inr ⟨hah, by omega, ?_⟩)
      · rw [hp, h1, hq]; rfl
      · rw [hp, h1, hq]; exact hlive
      · rw [hah']; exact mul_neg_of_pos_of_neg hff hah
  · simp only [lineCell, Nat.zero_add, List.getElem?_cons_succ, List.getElem?_cons_zero,
      Option.some.injEq] at hn' hm' hnew'
    subst hn'
    have hD : 0 < s.part.x 0 - s.part.x0 0 := by
      simp only [Matrix.cons_val_zero] at hpos'
      change 0 < 1 * (s.part.x 0 - s.part.x0 0) at hpos'
      linarith
    have hpt : s.part.x0 0 + f * (s.part.x 0 - s.part.x0 0) = x (j + 1) := by
      have := hpl _ _ 1 rfl rfl (by simp [onFacet])
      rw [dot1] at this
      simp only [Pi.sub_apply, Pi.add_apply, Pi.smul_apply, smul_eq_mul, Matrix.cons_val_zero] at this
      change 1 * (s.part.x0 0 + f * (s.part.x 0 - s.part.x0 0) - x (j + 1)) = 0 at this
      linarith
    have hah : 0 < ahead (le_refl 1) s := hD
    have hlt : x (j + 1) < s.part.x 0 := by
      rw [hsplit, hpt]
      linarith [mul_pos hff hD]
    by_cases hj0 : j + 1 = N
    · rw [if_pos hj0] at hnew'
      subst hnew'
      rw [if_pos rfl] at hres
      have hF : mFacet = N := by omega
      subst hF
      have hmk : (lineMesh x N marker).marker N ≠ 0 := hM.marked _ _ 1 N hcell (by simp [lineCell, hj0])
        (by simp [lineCell]; omega)
      rw [if_neg hmk] at hev
      rcases hb.cases (call := ⟨q, N, f, _, _⟩) hev.1 with ⟨h1, -⟩ | ⟨-, s0, h1⟩ | ⟨-, h1, -⟩
      · exfalso; simp only at h1; omega
      · rw [hj0] at hpt hlt
        rcases mirror_or_hole (n := ![1]) rfl h1 with ⟨hL, h2⟩ | ⟨hL, h2⟩
        · have hd : q1.del = false := by rw [h2, hq]; exact hlive
          rw [hd] at hres
          obtain ⟨hc1, hbrk, hp⟩ := hres
          simp only [Bool.false_eq_true, if_false] at hp
          have hx1 : q1.x = fun _ => 2 * x N - s.part.x 0 := by
            rw [h2, hq]
            funext a
            rw [Subsingleton.elim a 0]
            simp only [if_pos hv, dot1, Pi.sub_apply, Pi.smul_apply, smul_eq_mul, Matrix.cons_val_zero]
            rw [← hpt]
            ring
          have hu1 : q1.u = -s.part.u := by
            rw [h2, hq]
            funext a
            rw [Subsingleton.elim a 0]
            simp only [dot1, Pi.sub_apply, Pi.smul_apply, smul_eq_mul, Matrix.cons_val_zero, Pi.neg_apply]
            ring
          have hr1 : q1.rest = s.part.rest := by rw [h2, hq]
          refine .rightMirror hL hlt ?_ (by rw [hp]; exact hd) hbrk ⟨hah, by rw [hc1]; exact hi, hj0, ?_⟩
          · rw [hp]
            simp only [kin, mirrored, hx1, hu1, hr1]
          · unfold ahead
            rw [hp]
            have h00 : q1.x0 0 = x N := by rw [h2, hq]; exact hpt
            simp only [proj, Pi.sub_apply]
            change q1.x 0 - q1.x0 0 < 0
            rw [hx1, h00]
            linarith
        · have hd : q1.del = true := by rw [h2]
          rw [hd] at hres
          obtain ⟨hc1, hbrk, hp⟩ := hres
          simp only [if_true] at hp
          refine .rightHole hL hlt ?_ (by rw [hp]) hbrk
          rw [hp, h2, hq]; rfl
      · exact absurd rfl h1
    · rw [if_neg hj0] at hnew'
      rw [if_neg (by omega)] at hres
      obtain ⟨hc1, hbrk, hp⟩ := hres
      have h1 := hinner ⟨by omega, by omega⟩
      have hah' : ahead (le_refl 1) s' = (1 - f) * ahead (le_refl 1) s := by
        unfold ahead
        rw [hp, h1, hq]
        simp only [proj, Pi.sub_apply, Pi.add_apply, Pi.smul_apply, smul_eq_mul]
        ring
      refine .inner ?_ ?_ hbrk (.inl ⟨hah, by omega, ?_⟩)
      · rw [hp, h1, hq]; rfl
      · rw [hp, h1, hq]; exact hlive
      · rw [hah']; exact mul_pos hff hah
  · exfalso; omega

/-- The vertices are in order. -/
theorem line_up (hM : (lineMesh x N marker).Conforming) : ∀ j i, i ≤ j → j ≤ N → x i ≤ x j := by
  have hx : ∀ i, i < N → x i ≤ x (i + 1) := by
    intro i hi
    have hr := hM.regular _ _ (lineMesh_cell' (marker := marker) hi)
    have := hr.behind 1 1 0 _ _ _ rfl rfl rfl (by simp [onFacet]) (by simp [onFacet])
    rw [dot1] at this
    simp only [Pi.sub_apply, Matrix.cons_val_zero] at this
    linarith
  intro j
  induction j with
  | zero => intro i hi _; rw [Nat.le_zero.1 hi]
  | succ j ih =>
    intro i hi hj
    rcases Nat.lt_or_ge i (j + 1) with h | h
    · exact (ih i (by omega) (by omega)).trans (hx j (by omega))
    · rw [show i = j + 1 by omega]

/-- Tracking between two walls. -/
theorem wall_track (hM : (lineMesh x N marker).Conforming) {v : Variant} (hv : v.sharesDx = true)
    (hd : v.datum = .ok ()) (hb : WallBC marker N L R bc) (left : Nat) : ∀ {s s' : Trk K 1 τ ρ},
    Sound (le_refl 1) (lineMesh x N marker) s → s.part.del = false →
    track (le_refl 1) (lineMesh x N marker) v bc left s = .ok s' →
    Bounces (x 0) (x N) L R (kin s.part) (kin s'.part) s'.part.del := by
  have inside : ∀ {s : Trk K 1 τ ρ}, Sound (le_refl 1) (lineMesh x N marker) s → s.part.del = false →
      (lineMesh x N marker).isInside (proj (le_refl 1) s.part.x) s.cell = .ok true →
      Bounces (x 0) (x N) L R (kin s.part) (kin s.part) s.part.del := by
    intro s hs hl hi
    obtain ⟨c, hcell, -, -⟩ := hs.ex
    have hin := ((isInside_iff hcell (hM.regular _ _ hcell) _).1).1 hi
    obtain ⟨i, hi, hiN, rfl⟩ := lineMesh_cell hcell
    rw [lineCell_has] at hin
    rw [hl]
    exact .stays ((line_up hM i 0 (by omega) (by omega)).trans hin.1)
      (hin.2.trans (line_up hM N (i + 1) (by omega) (le_refl _)))
  induction left with
  | zero =>
    intro s s' hs hl e
    unfold track at e
    cases hi : (lineMesh x N marker).isInside (proj (le_refl 1) s.part.x) s.cell with
    | error e' => rw [hi] at e; cases e
    | ok b =>
      rw [hi] at e
      cases b with
      | true =>
        simp only [bind, Except.bind, if_true, Except.ok.injEq] at e
        subst e
        exact inside hs hl hi
      | false => simp [bind, Except.bind] at e
  | succ left ih =>
    intro s s' hs hl e
    unfold track at e
    cases hi : (lineMesh x N marker).isInside (proj (le_refl 1) s.part.x) s.cell with
    | error e' => rw [hi] at e; cases e
    | ok b =>
      rw [hi] at e
      cases b with
      | true =>
        simp only [bind, Except.bind, if_true, Except.ok.injEq] at e
        subst e
        exact inside hs hl hi
      | false =>
        simp only [bind, Except.bind, Bool.false_eq_true, if_false] at e
        obtain ⟨s1, brk, hc, hs1⟩ := cross_sound hM hd (by simpa [hv] using hb.good) hs hi
        obtain ⟨c, hcell, -, -⟩ := hs.ex
        obtain ⟨i, hic, -, -⟩ := lineMesh_cell hcell
        rw [hc] at e
        simp only at e
        cases wall_cross hM hv hb hic hs hl hi hc with
        | inner k d b _ =>
          subst b
          simp only [Bool.false_eq_true, if_false] at e
          rw [← k]; exact ih (hs1 rfl) d e
        | leftMirror hL hx k d b _ =>
          subst b
          simp only [Bool.false_eq_true, if_false] at e
          exact .leftMirror hL hx (k ▸ ih (hs1 rfl) d e)
        | leftHole hL hx k d b =>
          subst b
          simp only [if_true, Except.ok.injEq] at e
          subst e
          rw [k, d]; exact .leftHole hL hx
        | rightMirror hL hx k d b _ =>
          subst b
          simp only [Bool.false_eq_true, if_false] at e
          exact .rightMirror hL hx (k ▸ ih (hs1 rfl) d e)
        | rightHole hL hx k d b =>
          subst b
          simp only [if_true, Except.ok.injEq] at e
          subst e
          rw [k, d]; exact .rightHole hL hx

/-- The number of crossings between a mirror on the left and a hole on the right. -/
theorem wall_crossN (hM : (lineMesh x N marker).Conforming) {v : Variant} (hv : v.sharesDx = true)
    (hd : v.datum = .ok ()) (hb : WallBC marker N L false bc) {k : Nat} {s s' : Trk K 1 τ ρ}
    (hc : CrossN (le_refl 1) (lineMesh x N marker) v bc k s s') {i : Nat} (hi : s.cell = i)
    (hs : Sound (le_refl 1) (lineMesh x N marker) s) (hl : s.part.del = false) :
    (0 < ahead (le_refl 1) s → i + k < N) ∧ (ahead (le_refl 1) s < 0 → k ≤ i + N) ∧
      (ahead (le_refl 1) s = 0 → k = 0) ∧ i < N := by
  induction hc generalizing i with
  | zero s =>
    obtain ⟨c, hcell, -, -⟩ := hs.ex
    obtain ⟨j, hj, hjN, rfl⟩ := lineMesh_cell hcell
    refine ⟨fun _ => ?_, fun _ => ?_, fun _ => ?_, ?_⟩ <;> omega
  | @succ k s s1 s' out e r ih =>
    obtain ⟨c, hcell, -, -⟩ := hs.ex
    obtain ⟨j, hj, hjN, rfl⟩ := lineMesh_cell hcell
    obtain ⟨s2, brk, e2, hs2⟩ := cross_sound hM hd (by simpa [hv] using hb.good) hs out
    rw [e] at e2
    cases e2
    have hs1 := hs2 rfl
    obtain ⟨c1, hcell1, -, -⟩ := hs1.ex
    obtain ⟨j1, hj1, hj1N, rfl⟩ := lineMesh_cell hcell1
    cases wall_cross hM hv hb hi hs hl out e with
    | inner _ d _ a =>
      have := ih hj1 hs1 d
      rcases a with ⟨a, b, c⟩ | ⟨a, b, c⟩
      · have := this.1 c
        refine ⟨fun _ => ?_, fun h0 => ?_, fun h0 => ?_, ?_⟩
        · omega
        · exact absurd h0 (not_lt.2 a.le)
        · exact absurd h0 a.ne'
        · omega
      · have := this.2.1 c
        refine ⟨fun h0 => ?_, fun h0 => ?_, fun h0 => ?_, ?_⟩
        · exact absurd h0 (not_lt.2 a.le)
        · omega
        · exact absurd h0 a.ne
        · omega
    | leftMirror _ _ _ d _ a =>
      obtain ⟨a, b, c, a'⟩ := a
      have := (ih hj1 hs1 d).1 a'
      refine ⟨fun h0 => ?_, fun h0 => ?_, fun h0 => ?_, ?_⟩
      · exact absurd h0 (not_lt.2 a.le)
      · omega
      · exact absurd h0 a.ne
      · omega
    | leftHole _ _ _ _ b => cases b
    | rightMirror h0 => cases h0
    | rightHole _ _ _ _ b => cases b

end

/-- The result of a motion between walls is unique. -/
theorem Bounces.unique {a b : K} (hab : a ≤ b) {L R : Bool} {k k1 k2 : Vec K 1 × Vec K 1 × ρ} {l1 l2 : Bool}
    (h1 : Bounces a b L R k k1 l1) (h2 : Bounces a b L R k k2 l2) : k1 = k2 ∧ l1 = l2 := by
  induction h1 with
  | stays ha hb =>
    cases h2 with
    | stays _ _ => exact ⟨rfl, rfl⟩
    | leftMirror _ h _ => exact absurd h (not_lt.2 ha)
    | leftHole _ h => exact absurd h (not_lt.2 ha)
    | rightMirror _ h _ => exact absurd h (not_lt.2 hb)
    | rightHole _ h => exact absurd h (not_lt.2 hb)
  | leftMirror hL ha _ ih =>
    cases h2 with
    | stays h _ => exact absurd ha (not_lt.2 h)
    | leftMirror _ _ h => exact ih h
    | leftHole h _ => rw [hL] at h; cases h
    | rightMirror _ h _ => exact absurd (h.trans ha) (not_lt.2 hab)
    | rightHole _ h => exact absurd (h.trans ha) (not_lt.2 hab)
  | leftHole hL ha =>
    cases h2 with
    | stays h _ => exact absurd ha (not_lt.2 h)
    | leftMirror h _ _ => rw [hL] at h; cases h
    | leftHole _ _ => exact ⟨rfl, rfl⟩
    | rightMirror _ h _ => exact absurd (h.trans ha) (not_lt.2 hab)
    | rightHole _ h => exact absurd (h.trans ha) (not_lt.2 hab)
  | rightMirror hL ha _ ih =>
    cases h2 with
    | stays _ h => exact absurd ha (not_lt.2 h)
    | leftMirror _ h _ => exact absurd (ha.trans h) (not_lt.2 hab)
    | leftHole _ h => exact absurd (ha.trans h) (not_lt.2 hab)
    | rightMirror _ _ h => exact ih h
    | rightHole h _ => rw [hL] at h; cases h
  | rightHole hL ha =>
    cases h2 with
    | stays _ h => exact absurd ha (not_lt.2 h)
    | leftMirror _ h _ => exact absurd (ha.trans h) (not_lt.2 hab)
    | leftHole _ h => exact absurd (ha.trans h) (not_lt.2 hab)
    | rightMirror h _ _ => rw [hL] at h; cases h
    | rightHole _ _ => exact ⟨rfl, rfl⟩

/-- A mirror on the left and a hole on the right. -/
theorem bounces_folded {a b : K} (hab : a ≤ b) {k k' : Vec K 1 × Vec K 1 × ρ} {lost : Bool}
    (h : Bounces a b true false k k' lost) : k' = folded a k ∧ lost = !decide ((folded a k).1 0 ≤ b) := by
  have one : ∀ k : Vec K 1 × Vec K 1 × ρ, ¬ k.1 0 < a → Bounces a b true false k k' lost →
      k' = k ∧ lost = !decide (k.1 0 ≤ b) := by
    intro k ha hk
    cases hk with
    | stays _ h1 => exact ⟨rfl, by simp [h1]⟩
    | leftMirror _ h1 _ => exact absurd h1 ha
    | leftHole h1 _ => cases h1
    | rightMirror h1 _ _ => cases h1
    | rightHole _ h1 => exact ⟨rfl, by simp [h1]⟩
  unfold folded
  by_cases ha : k.1 0 < a
  · rw [if_pos ha]
    cases h with
    | stays h _ => exact absurd ha (not_lt.2 h)
    | leftMirror _ _ h =>
      refine one _ ?_ h
      simp only [mirrored, not_lt]; linarith
    | leftHole h _ => cases h
    | rightMirror h _ _ => cases h
    | rightHole _ h => exact absurd (h.trans ha) (not_lt.2 hab)
  · rw [if_neg ha]; exact one k ha h

end Dt
