import Verif.Lemmas.Track
import Verif.Spec.Track
import Verif.Lemmas.TrajPass
import Mathlib.Tactic.Abel
import Mathlib.Tactic.Ring

namespace Dt
variable {K : Type} [Field K] [LinearOrder K] [IsStrictOrderedRing K] {g p : Nat} {τ ρ : Type}

omit [LinearOrder K] [IsStrictOrderedRing K] in
theorem proj_add (h : g ≤ p) (x y : Vec K p) : proj h (x + y) = proj h x + proj h y := rfl
omit [LinearOrder K] [IsStrictOrderedRing K] in
theorem proj_sub (h : g ≤ p) (x y : Vec K p) : proj h (x - y) = proj h x - proj h y := rfl
omit [LinearOrder K] [IsStrictOrderedRing K] in
theorem proj_smul (h : g ≤ p) (t : K) (x : Vec K p) : proj h (t • x) = t • proj h x := rfl

omit [IsStrictOrderedRing K] in
theorem isInside_iff {M : Mesh K g} {ci : Int} {c : Cell K g} (hc : M.cell ci = some c)
    (hr : c.Regular) (q : Vec K g) :
    (M.isInside q ci = .ok true ↔ c.Has q) ∧ (M.isInside q ci = .ok false ↔ ¬ c.Has q) := by
  have : M.isInside q ci = .ok (c.contains q) := by
    unfold Mesh.isInside Mesh.lookup
    rw [hc]; rfl
  rw [this, ← contains_iff hr]
  simp

/-- The state of the tracking loop is sound: the start point of the remaining path is in
the current cell, and the path does not point out through the facet crossed
last. -/
structure Sound (h : g ≤ p) (M : Mesh K g) (s : Trk K p τ ρ) : Prop where
  ex : ∃ c, M.cell s.cell = some c ∧ c.Has (proj h s.part.x0) ∧
    ∀ (k : Nat) (n : Vec K g), c.facets[k]? = some s.last → c.normals[k]? = some n →
      dot n (proj h (s.part.x - s.part.x0)) ≤ 0

omit [IsStrictOrderedRing K] in
theorem nodup_getInt {xs : List Int} (h : xs.Nodup) {j k : Nat} {u : Int}
    (hj : xs[j]? = some u) (hk : xs[k]? = some u) : j = k := TrajSp.nodup_get h hj hk

/-- A crossing from a sound state cannot fail and leads to a sound state. -/
theorem cross_sound {h : g ≤ p} {M : Mesh K g} (hM : M.Conforming) {v : Variant}
    (hv : v.datum = .ok ())
    {bc : Int → τ → BCall K g p ρ → Except Err (τ × Part K p ρ)} (hbc : GoodBC h M (v.sharesDx = true) bc)
    {s : Trk K p τ ρ} (hs : Sound h M s)
    (hout : M.isInside (proj h s.part.x) s.cell = .ok false) :
    ∃ s' brk, crossOnce h M v bc s = .ok (s', brk) ∧ (brk = false → Sound h M s') := by
  obtain ⟨c, hc, hx0, hlast⟩ := hs.ex
  have hr := hM.regular _ _ hc
  have hnot := ((isInside_iff hc hr _).2).1 hout
  have hdx : proj h (s.part.x - s.part.x0) ≠ 0 := by
    intro h0
    apply hnot
    have : proj h s.part.x = proj h s.part.x0 := by
      rw [proj_sub] at h0
      exact sub_eq_zero.1 h0
    rw [this]; exact hx0
  obtain ⟨facet, f, n, e, hf, hn⟩ := findFacet_ok hc hr hx0 hdx
  have hone : proj h s.part.x0 + (1 : K) • proj h (s.part.x - s.part.x0) = proj h s.part.x := by
    rw [one_smul, proj_sub]; abel
  have hfacet : facet ≠ -1 := by
    intro h0
    have h1 := hf.none_ h0
    have := (hf.exit 1 zero_le_one (le_refl _)).2 (by rw [h1])
    rw [hone] at this
    exact hnot this
  obtain ⟨k, rfl, hk, hf1, hplane, hpos⟩ := hf.some_ hfacet
  have hn' := hn hfacet
  rw [Int.toNat_natCast] at hn'
  have hpos' := hpos n hn'
  have hkf : k < c.facets.length := by rw [hr.facets]; omega
  have hkn : k < c.neighbors.length := by rw [hr.neighbors]; omega
  have hF := List.getElem?_eq_getElem hkf
  have hN := List.getElem?_eq_getElem hkn
  generalize c.facets[k] = F at hF
  generalize c.neighbors[k] = cj at hN
  have hnew : F ≠ s.last := by
    intro h0
    have := hlast k n (by rw [hF, h0]) hn'
    linarith
  have hcross : c.Has (proj h (s.part.x0 + f • (s.part.x - s.part.x0))) := by
    rw [proj_add, proj_smul]
    exact (hf.exit f hf.range.1 hf.range.2).2 (le_refl _)
  have hplane' : c.OnPlane k (proj h (s.part.x0 + f • (s.part.x - s.part.x0))) := by
    rw [proj_add, proj_smul]; exact hplane
  -- the remaining path
  have hrem : s.part.x - (s.part.x0 + f • (s.part.x - s.part.x0)) =
      (1 - f) • (s.part.x - s.part.x0) := by
    funext i
    simp only [Pi.sub_apply, Pi.add_apply, Pi.smul_apply, smul_eq_mul]
    ring
  have hremdot : 0 < dot n (proj h (s.part.x - (s.part.x0 + f • (s.part.x - s.part.x0)))) := by
    rw [hrem, proj_smul, dot_smul]
    exact mul_pos (by linarith) hpos'
  -- soundness in the neighbour cell
  have across : ∀ (t : Trk K p τ ρ), cj ≠ -1 → t.cell = cj → t.last = F →
      t.part.x = s.part.x → t.part.x0 = s.part.x0 + f • (s.part.x - s.part.x0) → Sound h M t := by
    intro t hcj h1 h2 h3 h4
    obtain ⟨c', k', hc', hfk, hnn, hsub⟩ := hM.shared _ _ k cj hc hN hcj
    refine ⟨c', by rw [h1]; exact hc', ?_, ?_⟩
    · rw [h4]; exact hsub _ hcross hplane'
    · intro k'' n'' hk'' hn''
      rw [h2] at hk''
      rw [hF] at hfk
      have := nodup_getInt (hM.nodup _ _ hc') hk'' hfk
      subst this
      obtain ⟨a, ha, rfl⟩ := hnn n n'' hn' hn''
      rw [h3, h4, dot_neg_left, dot_comm, dot_smul, dot_comm]
      have := mul_pos ha hremdot
      linarith
  -- soundness in the same cell
  have stay : ∀ (t : Trk K p τ ρ), t.cell = s.cell → t.last = F →
      dot n (proj h (t.part.x - t.part.x0)) ≤ 0 →
      t.part.x0 = s.part.x0 + f • (s.part.x - s.part.x0) → Sound h M t := by
    intro t h1 h2 h3 h4
    refine ⟨c, by rw [h1]; exact hc, by rw [h4]; exact hcross, ?_⟩
    intro k'' n'' hk'' hn''
    rw [h2] at hk''
    have := nodup_getInt (hM.nodup _ _ hc) hk'' hF
    subst this
    rw [hn'] at hn''
    rw [← Option.some.inj hn'']
    exact h3
  have hlook : M.lookup s.cell = .ok c := by unfold Mesh.lookup; rw [hc]
  unfold crossOnce
  dsimp only
  rw [e]
  simp only [bind, Except.bind]
  rw [if_neg hfacet, hlook]
  simp only
  rw [pyGet_nat_of hF]
  simp only
  rw [if_neg hnew]
  by_cases hmk : M.marker F = 0
  · rw [if_neg (by simp [hmk])]
    have hcj : cj ≠ -1 := by
      rintro rfl
      exact hM.marked _ _ k F hc hN hF hmk
    simp only [nextCell, pyGet_nat_of hN, bind, Except.bind]
    rw [if_neg hcj]
    exact ⟨_, _, rfl, fun _ => across _ hcj rfl rfl rfl rfl⟩
  · rw [if_pos hmk]
    simp only [atMarked]
    generalize hs1 : ({ s with
      count := s.count + 1
      tStart := s.tStart + f * s.rem
      rem := s.rem - f * s.rem
      part := { s.part with x0 := s.part.x0 + f • (s.part.x - s.part.x0) }
      last := F
      dxS := if v.sharesDx = true then s.part.x - s.part.x0 else s.dxS } : Trk K p τ ρ) = s1
    have hev : ∃ evs, crossEvents v s1 = .ok evs := by
      unfold crossEvents
      rw [hv]
      split
      · exact ⟨_, rfl⟩
      · exact ⟨_, rfl⟩
    obtain ⟨evs, hev⟩ := hev
    rw [hev]
    simp only [bind, Except.bind]
    obtain ⟨⟨st', q'⟩, hb⟩ := hbc.total s1.st ⟨s1.part, F, f, some n, s1.dxS⟩ n rfl hmk
    subst hs1
    rw [hb]
    have hq0 := hbc.start _ _ _ _ hb
    simp only [pure, Except.pure, nextCell, pyGet_nat_of hN, bind, Except.bind]
    simp only at hq0
    by_cases hcj : cj = -1
    · rw [if_pos hcj]
      subst hcj
      have hbd := hbc.boundary _ _ _ _ n hb ⟨_, _, k, hc, hF, hN, hn'⟩ rfl
        (fun hsh => by simp only [if_pos hsh]; exact hrem) hremdot
      by_cases hdel : q'.del = true
      · rw [if_pos hdel]
        exact ⟨_, _, rfl, fun h0 => by cases h0⟩
      · rw [if_neg hdel]
        refine ⟨_, _, rfl, fun _ => stay _ rfl rfl ?_ hq0⟩
        exact hbd.resolve_left hdel
    · rw [if_neg hcj]
      have hin := hbc.interior _ _ _ _ hb ⟨_, _, k, cj, hc, hF, hN, hcj⟩
      exact ⟨_, _, rfl, fun _ => across _ hcj rfl rfl hin hq0⟩

/-- From a sound state the loop ends normally or exceeds the crossing limit; the other
errors do not occur. -/
theorem track_sound {h : g ≤ p} {M : Mesh K g} (hM : M.Conforming) {v : Variant}
    (hv : v.datum = .ok ())
    {bc : Int → τ → BCall K g p ρ → Except Err (τ × Part K p ρ)} (hbc : GoodBC h M (v.sharesDx = true) bc)
    (left : Nat) : ∀ (s : Trk K p τ ρ), Sound h M s →
    (∃ s', track h M v bc left s = .ok s') ∨
    (track h M v bc left s = .error (v.err .tooMany) ∧
      ∃ s', CrossN h M v bc left s s' ∧ M.isInside (proj h s'.part.x) s'.cell = .ok false) := by
  induction left with
  | zero =>
    intro s hs
    obtain ⟨c, hc, -, -⟩ := hs.ex
    have hr := hM.regular _ _ hc
    by_cases hin : c.Has (proj h s.part.x)
    · refine .inl ⟨s, ?_⟩
      unfold track
      rw [((isInside_iff hc hr _).1).2 hin]
      rfl
    · have hout := ((isInside_iff hc hr _).2).2 hin
      refine .inr ⟨?_, s, .zero s, hout⟩
      unfold track
      rw [hout]
      rfl
  | succ left ih =>
    intro s hs
    obtain ⟨c, hc, -, -⟩ := hs.ex
    have hr := hM.regular _ _ hc
    by_cases hin : c.Has (proj h s.part.x)
    · refine .inl ⟨s, ?_⟩
      unfold track
      rw [((isInside_iff hc hr _).1).2 hin]
      rfl
    · have hout := ((isInside_iff hc hr _).2).2 hin
      obtain ⟨s1, brk, e, hs1⟩ := cross_sound hM hv hbc hs hout
      have heq : track h M v bc (left + 1) s =
          if brk then .ok s1 else track h M v bc left s1 := by
        conv_lhs => unfold track
        rw [hout]
        simp only [bind, Except.bind, Bool.false_eq_true, if_false, e]
      rw [heq]
      cases brk with
      | true => exact .inl ⟨s1, rfl⟩
      | false =>
        simp only [Bool.false_eq_true, if_false]
        rcases ih s1 (hs1 rfl) with hok | ⟨herr, s', hcn, hout'⟩
        · exact .inl hok
        · exact .inr ⟨herr, s', .succ hout e hcn, hout'⟩

end Dt
