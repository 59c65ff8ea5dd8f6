import Verif.Lemmas.TrackSafe
import Verif.Lemmas.Track
import Verif.Spec.Straight

/-! # Straight paths through a mesh with absorbing boundary -/

namespace Dt
variable {K : Type} [Field K] [LinearOrder K] [IsStrictOrderedRing K] {g p : Nat} {τ ρ : Type}

omit [LinearOrder K] [IsStrictOrderedRing K] [Field K] in
theorem pyGet_some {A : Type} {xs : List A} {k : Nat} {a : A} (h : pyGet xs (k : Int) = .ok a) :
    xs[k]? = some a := by
  rw [TrajSp.pyGet_nat'] at h
  cases hk : xs[k]? with
  | none => rw [hk] at h; cases h
  | some b => rw [hk] at h; cases h; rfl

/-- A crossing that does not end the search: through facet `k` of cell `c` into the cell behind it,
`f` of the remaining move having been made. -/
structure Through (h : g ≤ p) (M : Mesh K g) (s s' : Trk K p τ ρ) (c : Cell K g) (k : Nat) (f : K)
    (n : Vec K g) : Prop where
  cell : M.cell s.cell = some c
  has : c.Has (proj h s.part.x0)
  found : Found c (proj h s.part.x0) (proj h (s.part.x - s.part.x0)) k f
  normal : c.normals[k]? = some n
  le : k ≤ g
  lt : f < 1
  pos : 0 < dot n (proj h (s.part.x - s.part.x0))
  next : c.neighbors[k]? = some s'.cell
  inner : s'.cell ≠ -1
  x : s'.part.x = s.part.x
  x0 : s'.part.x0 = s.part.x0 + f • (s.part.x - s.part.x0)

theorem cross_through {h : g ≤ p} {M : Mesh K g} (hM : M.Conforming) {v : Variant}
    {bc : Int → τ → BCall K g p ρ → Except Err (τ × Part K p ρ)}
    (hbc : GoodBC h M (v.sharesDx = true) bc) (ha : Absorbs M bc)
    {s s' : Trk K p τ ρ} (hs : Sound h M s)
    (hout : M.isInside (proj h s.part.x) s.cell = .ok false) (hc : Crossed h M v bc s s' false) :
    ∃ c k f n, Through h M s s' c k f n := by
  obtain ⟨c, hcell, hx0, -⟩ := hs.ex
  have hr := hM.regular _ _ hcell
  have hnot := ((isInside_iff hcell hr _).2).1 hout
  have hdx : proj h (s.part.x - s.part.x0) ≠ 0 := by
    intro h0
    apply hnot
    have : proj h s.part.x = proj h s.part.x0 := by
      rw [proj_sub] at h0
      exact sub_eq_zero.1 h0
    rw [this]; exact hx0
  obtain ⟨facet, f, n, e, hf, hn⟩ := findFacet_ok hcell hr hx0 hdx
  obtain ⟨cFacet, mFacet, new, f', n', c', st1, q, q1, evs, e1, hne, hcell', hm, -, hnew, hq, hev, -,
    -, -, -, -, -, -, hres⟩ := hc.ex
  rw [e] at e1
  simp only [Except.ok.injEq, Prod.mk.injEq] at e1
  obtain ⟨rfl, rfl, rfl⟩ := e1
  rw [hcell] at hcell'
  cases hcell'
  obtain ⟨k, rfl, hk, hf1, -, hpos⟩ := hf.some_ hne
  have hn' := hn hne
  rw [Int.toNat_natCast] at hn'
  -- the position is not changed, the start is the crossing point
  have hq1 : new ≠ -1 → q1.x = s.part.x ∧ q1.x0 = s.part.x0 + f • (s.part.x - s.part.x0) := by
    intro hnw
    split at hev
    · rw [hev.2.1, hq]; exact ⟨rfl, rfl⟩
    · refine ⟨(hbc.interior _ ⟨q, mFacet, f, _, _⟩ _ _ hev.1 ?_).trans (by rw [hq]),
        (hbc.start _ ⟨q, mFacet, f, _, _⟩ _ _ hev.1).trans (by rw [hq])⟩
      exact ⟨s.cell, _, k, new, hcell, pyGet_some hm, pyGet_some hnew, hnw⟩
  have hend : new ≠ -1 := by
    intro h0
    rw [if_pos h0] at hres
    have hbd : M.Boundary mFacet n :=
      ⟨s.cell, _, k, hcell, pyGet_some hm, by rw [pyGet_some hnew, h0], hn'⟩
    split at hev
    · rename_i hmk
      exact hM.marked _ _ k mFacet hcell (by rw [pyGet_some hnew, h0]) (pyGet_some hm) hmk
    · have := ha _ ⟨q, mFacet, f, _, _⟩ _ _ n hev.1 hbd
      rw [this] at hres
      simp at hres
  rw [if_neg hend] at hres
  obtain ⟨hx1, hx2⟩ := hq1 hend
  refine ⟨c, k, f, n, hcell, hx0, hf, hn', hk, hf1, hpos n hn', ?_, ?_, ?_, ?_⟩
  · rw [pyGet_some hnew, hres.1]
  · rw [hres.1]; exact hend
  · rw [hres.2.2]; exact hx1
  · rw [hres.2.2]; exact hx2

/-- The point reached after a part `t` of the remaining move. -/
def onWay (h : g ≤ p) (s : Trk K p τ ρ) (t : K) : Vec K g :=
  proj h s.part.x0 + t • proj h (s.part.x - s.part.x0)

omit [LinearOrder K] [IsStrictOrderedRing K] in
theorem Through.onWay [LinearOrder K] {h : g ≤ p} {M : Mesh K g} {s s' : Trk K p τ ρ} {c : Cell K g}
    {k : Nat} {f : K} {n : Vec K g} (ht : Through h M s s' c k f n) (t : K) :
    onWay h s' t = onWay h s (f + t * (1 - f)) := by
  unfold Dt.onWay
  rw [ht.x, ht.x0]
  funext i
  simp only [proj, Pi.add_apply, Pi.smul_apply, Pi.sub_apply, smul_eq_mul]
  ring

/-- The rest of the way, without its first point, does not meet the cell. -/
def Left (h : g ≤ p) (c : Cell K g) (s : Trk K p τ ρ) : Prop :=
  ∀ t : K, 0 < t → t ≤ 1 → ¬ c.Has (onWay h s t)

/-- The rest of the way does not meet the cell. -/
def Gone (h : g ≤ p) (c : Cell K g) (s : Trk K p τ ρ) : Prop :=
  ∀ t : K, 0 ≤ t → t ≤ 1 → ¬ c.Has (onWay h s t)

theorem Through.left {h : g ≤ p} {M : Mesh K g} {s s' : Trk K p τ ρ} {c : Cell K g}
    {k : Nat} {f : K} {n : Vec K g} (ht : Through h M s s' c k f n) : Left h c s' := by
  intro t h0 h1 hc
  rw [ht.onWay] at hc
  have hr := ht.found.range
  have hp : 0 < t * (1 - f) := mul_pos h0 (by linarith [ht.lt])
  have hle : t * (1 - f) ≤ 1 - f := by
    have := mul_le_mul_of_nonneg_right h1 (by linarith [ht.lt] : (0 : K) ≤ 1 - f)
    rwa [one_mul] at this
  have := (ht.found.exit (f + t * (1 - f)) (by linarith [hr.1]) (by linarith)).1 hc
  linarith

theorem Through.gone {h : g ≤ p} {M : Mesh K g} {s s' : Trk K p τ ρ} {c d : Cell K g}
    {k : Nat} {f : K} {n : Vec K g} (ht : Through h M s s' c k f n)
    (hd : Gone h d s ∨ (Left h d s ∧ f ≠ 0)) : Gone h d s' := by
  intro t h0 h1 hc
  rw [ht.onWay] at hc
  have hr := ht.found.range
  have hp : 0 ≤ t * (1 - f) := mul_nonneg h0 (by linarith [ht.lt])
  have hle : t * (1 - f) ≤ 1 - f := by
    have := mul_le_mul_of_nonneg_right h1 (by linarith [ht.lt] : (0 : K) ≤ 1 - f)
    rwa [one_mul] at this
  rcases hd with hd | ⟨hd, hf⟩
  · exact hd _ (by linarith [hr.1]) (by linarith) hc
  · have : 0 < f := lt_of_le_of_ne hr.1 (Ne.symm hf)
    exact hd _ (by linarith) (by linarith) hc

theorem Gone.ne {h : g ≤ p} {M : Mesh K g} {s : Trk K p τ ρ} (hs : Sound h M s) {ci : Int} {d : Cell K g}
    (hd : M.cell ci = some d) (hg : Gone h d s) : s.cell ≠ ci := by
  rintro rfl
  obtain ⟨c, hc, hx, -⟩ := hs.ex
  rw [hd] at hc
  cases hc
  apply hg 0 (le_refl _) zero_le_one
  have : onWay h s 0 = proj h s.part.x0 := by
    funext i
    simp [onWay]
  rw [this]
  exact hx

/-- The cell behind a facet is another cell. -/
theorem Through.ne {h : g ≤ p} {M : Mesh K g} (hM : M.Conforming) {s s' : Trk K p τ ρ} {c : Cell K g}
    {k : Nat} {f : K} {n : Vec K g} (ht : Through h M s s' c k f n) : s'.cell ≠ s.cell := by
  intro he
  obtain ⟨c', k', hc', hfk, hnn, -⟩ := hM.shared _ _ k _ ht.cell ht.next ht.inner
  rw [he, ht.cell] at hc'
  cases hc'
  have hr := hM.regular _ _ ht.cell
  have hkf : k < c.facets.length := by rw [hr.facets]; have := ht.le; omega
  have := nodup_getInt (hM.nodup _ _ ht.cell) (hfk.trans (List.getElem?_eq_getElem hkf))
    (List.getElem?_eq_getElem hkf)
  subst this
  obtain ⟨a, ha, e⟩ := hnn n n ht.normal ht.normal
  have hp := ht.pos
  have h2 : dot n (proj h (s.part.x - s.part.x0)) =
      - (a * dot n (proj h (s.part.x - s.part.x0))) := by
    conv_lhs => rw [e]
    rw [dot_neg_left, dot_comm, dot_smul, dot_comm]
  have := mul_pos ha hp
  linarith

/-- A path on which successive crossing points differ does not come back to a cell that it has left. -/
theorem path_gone {h : g ≤ p} {M : Mesh K g} (hM : M.Conforming) {v : Variant} (hv : v.datum = .ok ())
    {bc : Int → τ → BCall K g p ρ → Except Err (τ × Part K p ρ)}
    (hbc : GoodBC h M (v.sharesDx = true) bc) (ha : Absorbs M bc) {L : List (Int × Vec K p)}
    {s s' : Trk K p τ ρ} (hp : CrossPath h M v bc L s s') (hs : Sound h M s) {ci : Int} {d : Cell K g}
    (hd : M.cell ci = some d) (hg : Gone h d s) : ci ∉ L.map Prod.fst ++ [s'.cell] := by
  induction hp with
  | nil s =>
    have := hg.ne hs hd
    simpa using fun h0 => this h0.symm
  | @cons L s s1 s' out e r ih =>
    obtain ⟨s2, brk, e2, hs2⟩ := cross_sound hM hv hbc hs out
    rw [e] at e2
    cases e2
    obtain ⟨c, k, f, n, ht⟩ := cross_through hM hbc ha hs out (crossOnce_ok e)
    have := ih (hs2 rfl) (ht.gone (.inl hg))
    have hne := hg.ne hs hd
    simp only [List.map_cons, List.cons_append, List.mem_cons, not_or]
    exact ⟨fun h0 => hne h0.symm, this⟩

theorem path_left {h : g ≤ p} {M : Mesh K g} (hM : M.Conforming) {v : Variant} (hv : v.datum = .ok ())
    {bc : Int → τ → BCall K g p ρ → Except Err (τ × Part K p ρ)}
    (hbc : GoodBC h M (v.sharesDx = true) bc) (ha : Absorbs M bc) {L : List (Int × Vec K p)}
    {s s' : Trk K p τ ρ} (hp : CrossPath h M v bc L s s') (hs : Sound h M s)
    (hL : (s.part.x0 :: L.map Prod.snd).IsChain (· ≠ ·)) {ci : Int} {d : Cell K g}
    (hd : M.cell ci = some d) (hl : Left h d s) (hne : s.cell ≠ ci) :
    ci ∉ L.map Prod.fst ++ [s'.cell] := by
  cases hp with
  | nil => simpa using fun h0 => hne h0.symm
  | @cons L _ s1 _ out e r =>
    obtain ⟨s2, brk, e2, hs2⟩ := cross_sound hM hv hbc hs out
    rw [e] at e2
    cases e2
    obtain ⟨c, k, f, n, ht⟩ := cross_through hM hbc ha hs out (crossOnce_ok e)
    have hf : f ≠ 0 := by
      rintro rfl
      simp only [List.map_cons, List.isChain_cons_cons] at hL
      apply hL.1
      rw [ht.x0]
      funext i
      simp
    have := path_gone hM hv hbc ha r (hs2 rfl) hd (ht.gone (.inr ⟨hl, hf⟩))
    simp only [List.map_cons, List.cons_append, List.mem_cons, not_or]
    exact ⟨fun h0 => hne h0.symm, this⟩

theorem path_nodup {h : g ≤ p} {M : Mesh K g} (hM : M.Conforming) {v : Variant} (hv : v.datum = .ok ())
    {bc : Int → τ → BCall K g p ρ → Except Err (τ × Part K p ρ)}
    (hbc : GoodBC h M (v.sharesDx = true) bc) (ha : Absorbs M bc) {L : List (Int × Vec K p)}
    {s s' : Trk K p τ ρ} (hp : CrossPath h M v bc L s s') (hs : Sound h M s)
    (hL : (L.map Prod.snd).IsChain (· ≠ ·)) : (L.map Prod.fst ++ [s'.cell]).Nodup := by
  induction hp with
  | nil s => simp
  | @cons L s s1 s' out e r ih =>
    obtain ⟨s2, brk, e2, hs2⟩ := cross_sound hM hv hbc hs out
    rw [e] at e2
    cases e2
    obtain ⟨c, k, f, n, ht⟩ := cross_through hM hbc ha hs out (crossOnce_ok e)
    have hL' : (s1.part.x0 :: L.map Prod.snd).IsChain (· ≠ ·) := hL
    have h1 := ih (hs2 rfl) (List.IsChain.of_cons hL')
    simp only [List.map_cons, List.cons_append, List.nodup_cons]
    exact ⟨path_left hM hv hbc ha r (hs2 rfl) hL' ht.cell ht.left (ht.ne hM), h1⟩

/-- All cells of a path are cells of the mesh. -/
theorem path_cells {h : g ≤ p} {M : Mesh K g} (hM : M.Conforming) {v : Variant} (hv : v.datum = .ok ())
    {bc : Int → τ → BCall K g p ρ → Except Err (τ × Part K p ρ)}
    (hbc : GoodBC h M (v.sharesDx = true) bc) {L : List (Int × Vec K p)}
    {s s' : Trk K p τ ρ} (hp : CrossPath h M v bc L s s') (hs : Sound h M s) :
    ∀ ci ∈ L.map Prod.fst ++ [s'.cell], M.cell ci ≠ none := by
  induction hp with
  | nil s =>
    obtain ⟨c, hc, -⟩ := hs.ex
    simp [hc]
  | @cons L s s1 s' out e r ih =>
    obtain ⟨s2, brk, e2, hs2⟩ := cross_sound hM hv hbc hs out
    rw [e] at e2
    cases e2
    have := ih (hs2 rfl)
    obtain ⟨c, hc, -⟩ := hs.ex
    intro ci hci
    simp only [List.map_cons, List.cons_append, List.mem_cons] at hci
    rcases hci with rfl | hci
    · rw [hc]; simp
    · exact this ci hci

omit [IsStrictOrderedRing K] in
theorem path_of_crossN {h : g ≤ p} {M : Mesh K g} {v : Variant}
    {bc : Int → τ → BCall K g p ρ → Except Err (τ × Part K p ρ)} {n : Nat} {s s' : Trk K p τ ρ}
    (hc : CrossN h M v bc n s s') : ∃ L, L.length = n ∧ CrossPath h M v bc L s s' := by
  induction hc with
  | zero s => exact ⟨[], rfl, .nil s⟩
  | succ out e r ih =>
    obtain ⟨L, hl, hp⟩ := ih
    exact ⟨_ :: L, by simp [hl], .cons out e hp⟩

end Dt
