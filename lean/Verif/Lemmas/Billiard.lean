import Verif.Spec.Billiard
import Verif.Lemmas.TrackSafe
import Verif.Lemmas.TrackInv
import Verif.Lemmas.Leapfrog

/-! # Tracking in a domain with walls -/

set_option linter.unusedSectionVars false

namespace Dt
variable {K : Type} [Field K] [LinearOrder K] [IsStrictOrderedRing K] {g : Nat} {τ ρ ι : Type}

theorem wayPoint_one (a b : Vec K g) : wayPoint a b 1 = b := by
  unfold wayPoint; rw [one_smul, add_sub_cancel]

theorem wayPoint_zero (a b : Vec K g) : wayPoint a b 0 = a := by
  unfold wayPoint; funext r; simp

/-- A part of the way of a part of the way. -/
theorem wayPoint_wayPoint (a b : Vec K g) (t s : K) : wayPoint (wayPoint a b t) b s = wayPoint a b (t + s * (1 - t)) := by
  unfold wayPoint
  funext r
  simp only [Pi.add_apply, Pi.smul_apply, Pi.sub_apply, smul_eq_mul]
  ring

theorem wayPoint_rest (a b : Vec K g) (t : K) : b - wayPoint a b t = (1 - t) • (b - a) := by
  unfold wayPoint
  funext r
  simp only [Pi.add_apply, Pi.smul_apply, Pi.sub_apply, smul_eq_mul]
  ring

/-- Ways can be put together. -/
theorem way_append {dom : Vec K g → Prop} {a b : Vec K g} {t s : K} (ht : t < 1)
    (h : ∀ t', 0 ≤ t' → t' ≤ t → dom (wayPoint a b t'))
    (h' : ∀ t', 0 ≤ t' → t' ≤ s → dom (wayPoint (wayPoint a b t) b t')) :
    ∀ t', 0 ≤ t' → t' ≤ t + s * (1 - t) → dom (wayPoint a b t') := by
  intro t' h0 h1
  rcases le_total t' t with hle | hle
  · exact h t' h0 hle
  · have hp : 0 < 1 - t := by linarith
    have := h' ((t' - t) / (1 - t)) (div_nonneg (by linarith) hp.le) (by rw [div_le_iff₀ hp]; linarith)
    rw [wayPoint_wayPoint, div_mul_cancel₀ _ hp.ne'] at this
    simpa using this

/-- A motion that begins further back. -/
theorem Billiard.extend {dom : Vec K g → Prop} {walls : ι → Wall K g} {a : Vec K g}
    {k k' : Vec K g × Vec K g × ρ} {lost : Bool} {t : K} (h0 : 0 ≤ t) (ht : t < 1)
    (h : ∀ t', 0 ≤ t' → t' ≤ t → dom (wayPoint a k.1 t'))
    (r : Billiard dom walls (wayPoint a k.1 t) k k' lost) : Billiard dom walls a k k' lost := by
  have hp : 0 < 1 - t := by linarith
  have lt1 : ∀ {s : K}, s < 1 → t + s * (1 - t) < 1 := by
    intro s hs; nlinarith
  have out' : ∀ {n : Vec K g}, 0 < dot n (k.1 - wayPoint a k.1 t) → 0 < dot n (k.1 - a) := by
    intro n hn
    rw [wayPoint_rest, dot_smul] at hn
    exact (mul_pos_iff_of_pos_left hp).1 hn
  cases r with
  | stays hs =>
    refine .stays ?_
    have := way_append (s := 1) ht h hs
    simpa using this
  | bounce w s hs0 hs1 hs hon out hm r =>
    rw [wayPoint_wayPoint] at hon r
    exact .bounce w _ (by nlinarith) (lt1 hs1) (way_append ht h hs) hon (out' out) hm r
  | lost w s hs0 hs1 hs hon out hm =>
    rw [wayPoint_wayPoint] at hon
    exact .lost w _ (by nlinarith) (lt1 hs1) (way_append ht h hs) hon (out' out) hm

/-- Cells are convex. -/
theorem has_way {c : Cell K g} {a b : Vec K g} (ha : c.Has a) (hb : c.Has b) {t : K} (h0 : 0 ≤ t)
    (h1 : t ≤ 1) : c.Has (wayPoint a b t) := by
  intro k hk n v j hn hv hf
  have ea := ha k hk n v j hn hv hf
  have eb := hb k hk n v j hn hv hf
  have : dot n (wayPoint a b t - v) = (1 - t) * dot n (a - v) + t * dot n (b - v) := by
    unfold wayPoint
    rw [dot_sub, dot_add, dot_smul, dot_sub, dot_sub, dot_sub]; ring
  rw [this]
  nlinarith [mul_nonneg h0 (neg_nonneg.2 eb), mul_nonneg (sub_nonneg.2 h1) (neg_nonneg.2 ea)]

/-- What the callback at a mirror or a hole does. -/
theorem mirror_hole {B : Bool} {s0 st' : τ} {call : BCall K g g ρ} {q' : Part K g ρ} {n : Vec K g}
    (hn : call.normal = some n)
    (e : (if B then bcReflect s0 call else bcAbsorb s0 call) = .ok (st', q')) :
    (B = true ∧ q' = { call.part with
      x := call.part.x - (2 * dot n ((1 - call.frac) • call.dx)) • n
      u := call.part.u - (2 * dot n call.part.u) • n }) ∨
    (B = false ∧ q' = { call.part with del := true }) := by
  cases B with
  | true =>
    simp only [if_true, bcReflect, hn, Except.ok.injEq, Prod.mk.injEq] at e
    exact .inl ⟨rfl, e.2.symm⟩
  | false =>
    simp only [Bool.false_eq_true, if_false, bcAbsorb, Except.ok.injEq, Prod.mk.injEq] at e
    exact .inr ⟨rfl, e.2.symm⟩

section
variable {M : Mesh K g} {walls : ι → Wall K g} {wallOf : Int → ι}
  {bc : Int → τ → BCall K g g ρ → Except Err (τ × Part K g ρ)}

theorem proj_eq (q : Vec K g) : proj (le_refl g) q = q := rfl

theorem BilliardBC.good (hb : BilliardBC M walls wallOf bc) (hw : Walled M walls wallOf) {fresh : Prop}
    (hv : fresh ∨ ∀ w, (walls w).mirror = false) : GoodBC (le_refl g) M fresh bc := by
  classical
  have tot : ∀ (B : Bool) (s0 : τ) (call : BCall K g g ρ) n, call.normal = some n →
      ∃ r, (if B then bcReflect s0 call else bcAbsorb s0 call) = .ok r := by
    intro B s0 call n hn
    cases B with
    | true => simp only [if_true, bcReflect, hn]; exact ⟨_, rfl⟩
    | false => exact ⟨_, rfl⟩
  have st0 : ∀ (B : Bool) (s0 st' : τ) (call : BCall K g g ρ) (q' : Part K g ρ),
      (if B then bcReflect s0 call else bcAbsorb s0 call) = .ok (st', q') → q'.x0 = call.part.x0 := by
    intro B s0 st' call q' e
    cases B with
    | true =>
      simp only [if_true, bcReflect] at e
      split at e
      · cases e
      · cases e; rfl
    | false => cases e; rfl
  have noth : ∀ st (call : BCall K g g ρ) st' q', (∀ n, ¬ M.Boundary call.facet n) →
      bc (M.marker call.facet) st call = .ok (st', q') → q' = call.part := by
    intro st call st' q' hnb e
    rcases hb.inner _ hnb st call rfl with ⟨s0, h1⟩ | ⟨-, er, h1⟩
    · rw [h1] at e; cases e; rfl
    · rw [h1] at e; cases e
  refine ⟨?_, ?_, ?_, ?_⟩
  · intro st call n hn hm
    by_cases hB : ∃ n', M.Boundary call.facet n'
    · obtain ⟨n', hB⟩ := hB
      obtain ⟨s0, h1⟩ := hb.outer _ n' hB st call rfl
      rw [h1]; exact tot _ _ _ _ hn
    · rcases hb.inner _ (fun n hn => hB ⟨n, hn⟩) st call rfl with ⟨s0, h1⟩ | ⟨h1, -⟩
      · exact ⟨_, h1⟩
      · exact absurd h1 hm
  · intro st call st' q' e
    by_cases hB : ∃ n', M.Boundary call.facet n'
    · obtain ⟨n', hB⟩ := hB
      obtain ⟨s0, h1⟩ := hb.outer _ n' hB st call rfl
      rw [h1] at e; exact st0 _ _ _ _ _ e
    · rw [noth _ _ _ _ (fun n hn => hB ⟨n, hn⟩) e]
  · intro st call st' q' e hI
    rw [noth _ _ _ _ (fun n hn => hb.split _ n hn hI) e]
  · intro st call st' q' n e hB hn hf hpos
    obtain ⟨s0, h1⟩ := hb.outer _ n hB st call rfl
    rw [h1] at e
    rcases mirror_hole hn e with ⟨hL, rfl⟩ | ⟨-, rfl⟩
    · right
      have h2 := hf (hv.resolve_right fun h => by rw [h] at hL; cases hL)
      rw [proj_eq] at hpos ⊢
      simp only
      rw [← h2]
      have : dot n (call.part.x - (2 * dot n (call.part.x - call.part.x0)) • n - call.part.x0) =
          dot n (call.part.x - call.part.x0) * (1 - 2 * dot n n) := by
        simp only [dot_sub, dot_smul]; ring
      rw [this, hw.unit _ _ hB]
      linarith
    · exact .inl rfl

/-- How a crossing changes a particle in a domain with walls. -/
inductive BilliardCross (M : Mesh K g) (walls : ι → Wall K g) (s s' : Trk K g τ ρ) (brk : Bool) : Prop
  | inner (t : K) (h0 : 0 ≤ t) (h1 : t < 1)
      (h : ∀ t', 0 ≤ t' → t' ≤ t → M.Points (wayPoint s.part.x0 s.part.x t'))
      (x0 : s'.part.x0 = wayPoint s.part.x0 s.part.x t) (k : kin s'.part = kin s.part)
      (d : s'.part.del = false) (b : brk = false)
  | mirror (w : ι) (t : K) (h0 : 0 ≤ t) (h1 : t < 1)
      (h : ∀ t', 0 ≤ t' → t' ≤ t → M.Points (wayPoint s.part.x0 s.part.x t'))
      (hon : (walls w).on (wayPoint s.part.x0 s.part.x t)) (out : 0 < dot (walls w).n (s.part.x - s.part.x0))
      (hm : (walls w).mirror = true) (x0 : s'.part.x0 = wayPoint s.part.x0 s.part.x t)
      (k : kin s'.part = imaged (walls w).n (wayPoint s.part.x0 s.part.x t) (kin s.part))
      (d : s'.part.del = false) (b : brk = false)
  | hole (w : ι) (t : K) (h0 : 0 ≤ t) (h1 : t < 1)
      (h : ∀ t', 0 ≤ t' → t' ≤ t → M.Points (wayPoint s.part.x0 s.part.x t'))
      (hon : (walls w).on (wayPoint s.part.x0 s.part.x t)) (out : 0 < dot (walls w).n (s.part.x - s.part.x0))
      (hm : (walls w).mirror = false) (k : kin s'.part = kin s.part)
      (d : s'.part.del = true) (b : brk = true)

theorem billiard_cross (hM : M.Conforming) {v : Variant} (hv : v.sharesDx = true ∨ ∀ w, (walls w).mirror = false)
    (hw : Walled M walls wallOf) (hb : BilliardBC M walls wallOf bc) {s s' : Trk K g τ ρ} {brk : Bool}
    (hs : Sound (le_refl g) M s) (hlive : s.part.del = false)
    (hout : M.isInside (proj (le_refl g) s.part.x) s.cell = .ok false)
    (e : crossOnce (le_refl g) M v bc s = .ok (s', brk)) : BilliardCross M walls s s' brk := by
  obtain ⟨c, hcell, hx0, -⟩ := hs.ex
  have hr := hM.regular _ _ hcell
  have hnot := ((isInside_iff hcell hr _).2).1 hout
  rw [proj_eq] at hx0 hnot
  have hdx : proj (le_refl g) (s.part.x - s.part.x0) ≠ 0 := by
    rw [proj_eq]
    intro h0
    exact hnot (by rw [sub_eq_zero.1 h0]; exact hx0)
  obtain ⟨facet, f, n, ef, hf, hn⟩ := findFacet_ok hcell hr (x0 := proj (le_refl g) s.part.x0) hx0 hdx
  obtain ⟨cFacet, mFacet, new, f', n', c', st1, q, q1, evs, e1, hne, hcell', hm, -, hnew, hq, hev, -,
    -, -, -, -, -, -, hres⟩ := (crossOnce_ok e).ex
  rw [ef] at e1
  simp only [Except.ok.injEq, Prod.mk.injEq] at e1
  obtain ⟨rfl, rfl, rfl⟩ := e1
  rw [hcell] at hcell'
  cases hcell'
  obtain ⟨kk, rfl, hk, hf1, hpl, hpos⟩ := hf.some_ hne
  have hn' := hn hne
  rw [Int.toNat_natCast] at hn'
  have hm' := pyGet_some hm
  have hnew' := pyGet_some hnew
  have hpos' := hpos n hn'
  simp only [proj_eq] at hpos' hpl
  have hseg : ∀ t', 0 ≤ t' → t' ≤ f → M.Points (wayPoint s.part.x0 s.part.x t') := fun t' h0 h1 =>
    ⟨s.cell, c, hcell, (hf.exit t' h0 (by linarith)).2 h1⟩
  have hhas : c.Has (s.part.x0 + f • (s.part.x - s.part.x0)) := (hf.exit f hf.range.1 hf.range.2).2 (le_refl _)
  by_cases hb1 : new = -1
  · subst hb1
    rw [if_pos rfl] at hres
    have hB : M.Boundary mFacet n := ⟨s.cell, c, kk, hcell, hm', hnew', hn'⟩
    have hmk := hM.marked _ _ kk _ hcell hnew' hm'
    rw [if_neg hmk] at hev
    obtain ⟨s0, h1⟩ := hb.outer _ n hB s.st ⟨q, mFacet, f, some n, if v.sharesDx then s.part.x - s.part.x0 else s.dxS⟩ rfl
    rw [h1] at hev
    have hon := hw.on _ _ kk _ _ hcell hnew' hm' hhas hpl
    rw [← hw.normal _ _ hB] at hpos'
    rcases mirror_hole (n := n) rfl hev.1 with ⟨hL, h2⟩ | ⟨hL, h2⟩
    · have hd : q1.del = false := by rw [h2, hq]; exact hlive
      rw [hd] at hres
      obtain ⟨hc1, hbrk, hp⟩ := hres
      simp only [Bool.false_eq_true, if_false] at hp
      refine .mirror (wallOf mFacet) f hf.range.1 hf1 hseg hon hpos' hL ?_ ?_ (by rw [hp]; exact hd) hbrk
      · rw [hp, h2, hq]; rfl
      · rw [hp, h2, hq, hw.normal _ _ hB]
        have hv' := hv.resolve_right fun h => by rw [h] at hL; cases hL
        simp only [kin, imaged, if_pos hv', wayPoint_rest]
    · have hd : q1.del = true := by rw [h2]
      rw [hd] at hres
      obtain ⟨hc1, hbrk, hp⟩ := hres
      simp only [if_true] at hp
      refine .hole (wallOf mFacet) f hf.range.1 hf1 hseg hon hpos' hL ?_ (by rw [hp]) hbrk
      rw [hp, h2, hq]; rfl
  · rw [if_neg hb1] at hres
    obtain ⟨hc1, hbrk, hp⟩ := hres
    have hI : M.Interior mFacet := ⟨s.cell, c, kk, new, hcell, hm', hnew', hb1⟩
    have hq1 : q1 = q := by
      by_cases h0 : M.marker mFacet = 0
      · rw [if_pos h0] at hev
        exact hev.2.1
      · rw [if_neg h0] at hev
        rcases hb.inner _ (fun n hn => hb.split _ n hn hI) s.st
          ⟨q, mFacet, f, some n, if v.sharesDx then s.part.x - s.part.x0 else s.dxS⟩ rfl with ⟨s0, h1⟩ | ⟨-, er, h1⟩
        · have h2 := hev.1
          rw [h1] at h2; cases h2; rfl
        · have h2 := hev.1
          rw [h1] at h2; cases h2
    refine .inner f hf.range.1 hf1 hseg ?_ ?_ ?_ hbrk
    · rw [hp, hq1, hq]; rfl
    · rw [hp, hq1, hq]; rfl
    · rw [hp, hq1, hq]; exact hlive

/-- Tracking in a domain with walls. -/
theorem billiard_track (hM : M.Conforming) {v : Variant} (hv : v.sharesDx = true ∨ ∀ w, (walls w).mirror = false)
    (hd : v.datum = .ok ()) (hw : Walled M walls wallOf) (hb : BilliardBC M walls wallOf bc) (left : Nat) :
    ∀ {s s' : Trk K g τ ρ}, Sound (le_refl g) M s → s.part.del = false →
    track (le_refl g) M v bc left s = .ok s' →
    Billiard M.Points walls s.part.x0 (kin s.part) (kin s'.part) s'.part.del := by
  have inside : ∀ {s : Trk K g τ ρ}, Sound (le_refl g) M s → s.part.del = false →
      M.isInside (proj (le_refl g) s.part.x) s.cell = .ok true →
      Billiard M.Points walls s.part.x0 (kin s.part) (kin s.part) s.part.del := by
    intro s hs hl hi
    obtain ⟨c, hcell, hx0, -⟩ := hs.ex
    have hin := ((isInside_iff hcell (hM.regular _ _ hcell) _).1).1 hi
    rw [hl]
    exact .stays fun t h0 h1 => ⟨s.cell, c, hcell, has_way hx0 hin h0 h1⟩
  induction left with
  | zero =>
    intro s s' hs hl e
    unfold track at e
    cases hi : M.isInside (proj (le_refl g) s.part.x) s.cell with
    | error e' => rw [hi] at e; cases e
    | ok b =>
      rw [hi] at e
      cases b with
      | true =>
        simp only [bind, Except.bind, if_true, Except.ok.injEq] at e
        subst e
        exact inside hs hl hi
      | false => simp [bind, Except.bind] at e
  | succ left ih =>
    intro s s' hs hl e
    unfold track at e
    cases hi : M.isInside (proj (le_refl g) s.part.x) s.cell with
    | error e' => rw [hi] at e; cases e
    | ok b =>
      rw [hi] at e
      cases b with
      | true =>
        simp only [bind, Except.bind, if_true, Except.ok.injEq] at e
        subst e
        exact inside hs hl hi
      | false =>
        simp only [bind, Except.bind, Bool.false_eq_true, if_false] at e
        obtain ⟨s1, brk, hc, hs1⟩ := cross_sound hM hd (hb.good hw hv) hs hi
        rw [hc] at e
        simp only at e
        cases billiard_cross hM hv hw hb hs hl hi hc with
        | inner t h0 h1 h x0 k d b =>
          subst b
          simp only [Bool.false_eq_true, if_false] at e
          have := ih (hs1 rfl) d e
          rw [k, x0] at this
          exact Billiard.extend h0 h1 h this
        | mirror w t h0 h1 h hon out hm x0 k d b =>
          subst b
          simp only [Bool.false_eq_true, if_false] at e
          have := ih (hs1 rfl) d e
          rw [k, x0] at this
          exact .bounce w t h0 h1 h hon out hm this
        | hole w t h0 h1 h hon out hm k d b =>
          subst b
          simp only [if_true, Except.ok.injEq] at e
          subst e
          rw [k, d]
          exact .lost w t h0 h1 h hon out hm

end
end Dt
