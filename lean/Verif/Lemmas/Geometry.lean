import Mathlib.Tactic.Linarith
import Mathlib.Tactic.FieldSimp
import Mathlib.Tactic.Ring
import Mathlib.Tactic.LinearCombination
import Mathlib.Algebra.Order.Field.Basic
import Mathlib.Algebra.Order.BigOperators.Group.Finset
import Verif.Spec.Geometry
import Verif.Lemmas.Traj

namespace Dt
variable {K : Type} [Field K] [LinearOrder K] [IsStrictOrderedRing K] {g d : Nat}

omit [LinearOrder K] [IsStrictOrderedRing K] in
theorem dot_add (n u v : Vec K d) : dot n (u + v) = dot n u + dot n v := by
  simp [dot, mul_add, Finset.sum_add_distrib]

omit [LinearOrder K] [IsStrictOrderedRing K] in
theorem dot_sub (n u v : Vec K d) : dot n (u - v) = dot n u - dot n v := by
  simp [dot, mul_sub, Finset.sum_sub_distrib]

omit [LinearOrder K] [IsStrictOrderedRing K] in
theorem dot_smul (n u : Vec K d) (t : K) : dot n (t • u) = t * dot n u := by
  simp only [dot, Finset.mul_sum, Pi.smul_apply, smul_eq_mul]
  exact Finset.sum_congr rfl (fun i _ => by ring)

omit [LinearOrder K] [IsStrictOrderedRing K] in
theorem dot_comm (u v : Vec K d) : dot u v = dot v u := by
  simp only [dot]
  exact Finset.sum_congr rfl (fun i _ => by ring)

omit [LinearOrder K] [IsStrictOrderedRing K] in
theorem dot_neg_left (u v : Vec K d) : dot (-u) v = -dot u v := by
  simp [dot]

omit [LinearOrder K] [IsStrictOrderedRing K] in
theorem dot_zero (u : Vec K d) : dot u 0 = 0 := by simp [dot]

theorem dot_self_eq_zero {u : Vec K d} : dot u u = 0 ↔ u = 0 := by
  constructor
  · intro h
    unfold dot at h
    rw [Finset.sum_eq_zero_iff_of_nonneg (fun i _ => mul_self_nonneg _)] at h
    funext i
    have := h i (Finset.mem_univ i)
    simpa using this
  · rintro rfl; exact dot_zero _

/-- Normal and plane point of a tested facet. -/
def nv (c : Cell K g) (kw : Int × Int) : Vec K g × Vec K g :=
  (c.normals.getD kw.1.toNat 0, c.verts.getD kw.2.toNat 0)

/-- The lookups of a facet test succeed. -/
def Okay (c : Cell K g) (kw : Int × Int) : Prop :=
  0 ≤ kw.1 ∧ 0 ≤ kw.2 ∧ kw.1.toNat < c.normals.length ∧ kw.2.toNat < c.verts.length

omit [LinearOrder K] [IsStrictOrderedRing K] in
theorem okay_get {c : Cell K g} {kw : Int × Int} (h : Okay c kw) :
    pyGet c.normals kw.1 = .ok (nv c kw).1 ∧ pyGet c.verts kw.2 = .ok (nv c kw).2 ∧
      c.normals[kw.1.toNat]? = some (nv c kw).1 ∧ c.verts[kw.2.toNat]? = some (nv c kw).2 := by
  obtain ⟨h1, h2, h3, h4⟩ := h
  have e1 : c.normals[kw.1.toNat]? = some (nv c kw).1 := by
    simp [nv, List.getElem?_eq_getElem h3]
  have e2 : c.verts[kw.2.toNat]? = some (nv c kw).2 := by
    simp [nv, List.getElem?_eq_getElem h4]
  refine ⟨?_, ?_, e1, e2⟩
  · unfold pyGet
    rw [if_pos h1, e1]; rfl
  · unfold pyGet
    rw [if_pos h2, e2]; rfl

/-- The distance used by the code: the sign is flipped if negative. -/
def flip (x : K) : K := if x < 0 then -x else x

theorem flip_nonneg (x : K) : 0 ≤ flip x := by
  unfold flip; split
  · linarith
  · linarith

omit [IsStrictOrderedRing K] in
theorem testFacet_eq {c : Cell K g} {kw : Int × Int} (h : Okay c kw) (x0 dx : Vec K g)
    (acc : Int × K) :
    testFacet c x0 dx kw.1 kw.2 acc = .ok
      (if 0 < dot (nv c kw).1 dx ∧
          flip (dot (nv c kw).1 ((nv c kw).2 - x0)) < acc.2 * dot (nv c kw).1 dx then
        (kw.1, flip (dot (nv c kw).1 ((nv c kw).2 - x0)) / dot (nv c kw).1 dx)
      else acc) := by
  obtain ⟨e1, e2, -, -⟩ := okay_get h
  unfold testFacet
  rw [e1]
  simp only [bind, Except.bind]
  by_cases h1 : 0 < dot (nv c kw).1 dx
  · rw [if_pos h1, e2]
    simp only [h1, true_and, flip]
    split <;> split <;> rfl
  · rw [if_neg h1]
    simp only [h1, false_and, if_false]
    rfl

/-- What the tests establish about (facet, fraction). -/
structure Tested (c : Cell K g) (x0 dx : Vec K g) (L : List (Int × Int)) (acc r : Int × K) :
    Prop where
  le : r.2 ≤ acc.2
  nonneg : 0 ≤ acc.2 → 0 ≤ r.2
  min : ∀ kw ∈ L, 0 < dot (nv c kw).1 dx →
    r.2 * dot (nv c kw).1 dx ≤ flip (dot (nv c kw).1 ((nv c kw).2 - x0))
  from_ : r = acc ∨ ∃ kw ∈ L, r.1 = kw.1 ∧ 0 < dot (nv c kw).1 dx ∧ r.2 < acc.2 ∧
    r.2 * dot (nv c kw).1 dx = flip (dot (nv c kw).1 ((nv c kw).2 - x0))

theorem testOne {c : Cell K g} {kw : Int × Int} (h : Okay c kw) (x0 dx : Vec K g)
    (acc : Int × K) : ∃ r, testFacet c x0 dx kw.1 kw.2 acc = .ok r ∧
      Tested c x0 dx [kw] acc r := by
  refine ⟨_, testFacet_eq h x0 dx acc, ?_⟩
  have hn := flip_nonneg (dot (nv c kw).1 ((nv c kw).2 - x0))
  split
  · rename_i hc
    obtain ⟨h1, h2⟩ := hc
    have hlt := (div_lt_iff₀ h1).2 h2
    have heq := div_mul_cancel₀ (flip (dot (nv c kw).1 ((nv c kw).2 - x0))) h1.ne'
    refine ⟨hlt.le, fun _ => div_nonneg hn h1.le, ?_, .inr ⟨kw, by simp, rfl, h1, hlt, heq⟩⟩
    intro kw' hk hpos
    simp only [List.mem_singleton] at hk
    subst hk
    exact heq.le
  · rename_i hc
    refine ⟨le_refl _, fun h => h, ?_, .inl rfl⟩
    intro kw' hk hpos
    simp only [List.mem_singleton] at hk
    subst hk
    by_contra hlt
    exact hc ⟨hpos, not_le.1 hlt⟩

theorem testAll_ok {c : Cell K g} (x0 dx : Vec K g) (L : List (Int × Int)) :
    ∀ (acc : Int × K), (∀ kw ∈ L, Okay c kw) →
    ∃ r, testAll c x0 dx L acc = .ok r ∧ Tested c x0 dx L acc r := by
  induction L with
  | nil => intro acc _; exact ⟨acc, rfl, le_refl _, fun h => h, by simp, .inl rfl⟩
  | cons kw L ih =>
    intro acc hall
    obtain ⟨r1, e1, t1⟩ := testOne (hall kw (by simp)) x0 dx acc
    obtain ⟨r2, e2, t2⟩ := ih r1 (fun kw' hk => hall kw' (by simp [hk]))
    refine ⟨r2, ?_, t2.le.trans t1.le, fun h => t2.nonneg (t1.nonneg h), ?_, ?_⟩
    · obtain ⟨k, w⟩ := kw
      simp only [testAll, bind, Except.bind]
      simp only at e1
      rw [e1]
      exact e2
    · intro kw' hk hpos
      rcases List.mem_cons.1 hk with rfl | hk
      · exact (mul_le_mul_of_nonneg_right t2.le hpos.le).trans (t1.min _ (by simp) hpos)
      · exact t2.min kw' hk hpos
    · rcases t2.from_ with h | ⟨kw', hk, h1, h2, h3, h4⟩
      · rw [h]
        rcases t1.from_ with h' | ⟨kw', hk, h1, h2, h3, h4⟩
        · exact .inl h'
        · simp only [List.mem_singleton] at hk
          subst hk
          exact .inr ⟨kw', by simp, h1, h2, h3, h4⟩
      · exact .inr ⟨kw', by simp [hk], h1, h2, lt_of_lt_of_le h3 t1.le, h4⟩

/-! ### Regular cells -/

theorem dim_cases (h : 1 ≤ g ∧ g ≤ 3) : g = 1 ∨ g = 2 ∨ g = 3 := by omega

/-- Every test uses a facet `k ≤ g` with a vertex of that facet, and every facet is
tested. -/
theorem tests_mem (h : 1 ≤ g ∧ g ≤ 3) {kw : Int × Int} (hk : kw ∈ facetTests g) :
    ∃ k w : Nat, kw = (↑k, ↑w) ∧ k ≤ g ∧ w ≤ g ∧ onFacet g k w := by
  rcases dim_cases h with rfl | rfl | rfl <;>
    simp only [facetTests, List.mem_cons, List.not_mem_nil, or_false] at hk
  · rcases hk with rfl | rfl
    · exact ⟨0, 0, rfl, by omega, by omega, by simp [onFacet]⟩
    · exact ⟨1, 1, rfl, by omega, by omega, by simp [onFacet]⟩
  · rcases hk with rfl | rfl | rfl
    · exact ⟨0, 1, rfl, by omega, by omega, by simp [onFacet]⟩
    · exact ⟨1, 2, rfl, by omega, by omega, by simp [onFacet]⟩
    · exact ⟨2, 0, rfl, by omega, by omega, by simp [onFacet]⟩
  · rcases hk with rfl | rfl | rfl | rfl
    · exact ⟨0, 1, rfl, by omega, by omega, by simp [onFacet]⟩
    · exact ⟨1, 2, rfl, by omega, by omega, by simp [onFacet]⟩
    · exact ⟨2, 3, rfl, by omega, by omega, by simp [onFacet]⟩
    · exact ⟨3, 0, rfl, by omega, by omega, by simp [onFacet]⟩

theorem tests_all (h : 1 ≤ g ∧ g ≤ 3) {k : Nat} (hk : k ≤ g) :
    ∃ w : Nat, ((k : Int), (w : Int)) ∈ facetTests g := by
  rcases dim_cases h with rfl | rfl | rfl
  · have : k = 0 ∨ k = 1 := by omega
    rcases this with rfl | rfl
    · exact ⟨0, by simp [facetTests]⟩
    · exact ⟨1, by simp [facetTests]⟩
  · have : k = 0 ∨ k = 1 ∨ k = 2 := by omega
    rcases this with rfl | rfl | rfl
    · exact ⟨1, by simp [facetTests]⟩
    · exact ⟨2, by simp [facetTests]⟩
    · exact ⟨0, by simp [facetTests]⟩
  · have : k = 0 ∨ k = 1 ∨ k = 2 ∨ k = 3 := by omega
    rcases this with rfl | rfl | rfl | rfl
    · exact ⟨1, by simp [facetTests]⟩
    · exact ⟨2, by simp [facetTests]⟩
    · exact ⟨3, by simp [facetTests]⟩
    · exact ⟨0, by simp [facetTests]⟩

omit [IsStrictOrderedRing K] in
theorem Cell.Regular.okay {c : Cell K g} (h : c.Regular) {kw : Int × Int}
    (hk : kw ∈ facetTests g) : Okay c kw := by
  obtain ⟨k, w, rfl, h1, h2, -⟩ := tests_mem h.dim hk
  refine ⟨by simp, by simp, ?_, ?_⟩
  · simp only [Int.toNat_natCast, h.normals]; omega
  · simp only [Int.toNat_natCast, h.verts]; omega

omit [IsStrictOrderedRing K] in
/-- Any vertex of the facet can be used as the plane point. -/
theorem Cell.Regular.same_plane {c : Cell K g} (h : c.Regular) {k w : Nat}
    (hk : ((k : Int), (w : Int)) ∈ facetTests g) {n v : Vec K g} {j : Nat}
    (hn : c.normals[k]? = some n) (hv : c.verts[j]? = some v) (hj : onFacet g k j) (p : Vec K g) :
    n = (nv c (↑k, ↑w)).1 ∧ dot n (p - v) = dot n (p - (nv c (↑k, ↑w)).2) := by
  obtain ⟨-, -, e1, e2⟩ := okay_get (h.okay hk)
  simp only [Int.toNat_natCast] at e1 e2
  have hne : n = (nv c (↑k, ↑w)).1 := by
    rw [hn] at e1; exact Option.some.inj e1
  refine ⟨hne, ?_⟩
  obtain ⟨k', w', he, -, -, hon⟩ := tests_mem h.dim hk
  simp only [Prod.mk.injEq, Nat.cast_inj] at he
  obtain ⟨rfl, rfl⟩ := he
  have := h.plane k w j n _ v hn e2 hv hon hj
  rw [dot_sub] at this ⊢
  rw [dot_sub]
  linear_combination -this

omit [IsStrictOrderedRing K] in
theorem behind_iff {c : Cell K g} (h : c.Regular) {k w : Nat}
    (hk : ((k : Int), (w : Int)) ∈ facetTests g) (p : Vec K g) :
    c.Behind k p ↔ dot (nv c (↑k, ↑w)).1 (p - (nv c (↑k, ↑w)).2) ≤ 0 := by
  obtain ⟨-, -, e1, e2⟩ := okay_get (h.okay hk)
  simp only [Int.toNat_natCast] at e1 e2
  obtain ⟨k', w', he, -, -, hon⟩ := tests_mem h.dim hk
  simp only [Prod.mk.injEq, Nat.cast_inj] at he
  obtain ⟨rfl, rfl⟩ := he
  constructor
  · intro hb
    exact hb _ _ w e1 e2 hon
  · intro hle n v j hn hv hj
    obtain ⟨rfl, h2⟩ := h.same_plane hk hn hv hj p
    rw [h2]; exact hle

omit [IsStrictOrderedRing K] in
theorem onPlane_iff {c : Cell K g} (h : c.Regular) {k w : Nat}
    (hk : ((k : Int), (w : Int)) ∈ facetTests g) (p : Vec K g) :
    c.OnPlane k p ↔ dot (nv c (↑k, ↑w)).1 (p - (nv c (↑k, ↑w)).2) = 0 := by
  obtain ⟨-, -, e1, e2⟩ := okay_get (h.okay hk)
  simp only [Int.toNat_natCast] at e1 e2
  obtain ⟨k', w', he, -, -, hon⟩ := tests_mem h.dim hk
  simp only [Prod.mk.injEq, Nat.cast_inj] at he
  obtain ⟨rfl, rfl⟩ := he
  constructor
  · intro hb
    exact hb _ _ w e1 e2 hon
  · intro hle n v j hn hv hj
    obtain ⟨rfl, h2⟩ := h.same_plane hk hn hv hj p
    rw [h2]; exact hle

omit [IsStrictOrderedRing K] in
theorem has_iff {c : Cell K g} (h : c.Regular) (p : Vec K g) :
    c.Has p ↔ ∀ kw ∈ facetTests g, dot (nv c kw).1 (p - (nv c kw).2) ≤ 0 := by
  constructor
  · intro hh kw hk
    obtain ⟨k, w, rfl, h1, -, -⟩ := tests_mem h.dim hk
    exact (behind_iff h hk p).1 (hh k h1)
  · intro hall k hk
    obtain ⟨w, hw⟩ := tests_all h.dim hk
    exact (behind_iff h hw p).2 (hall _ hw)

omit [IsStrictOrderedRing K] in
/-- The containment test of the model is the closed cell. -/
theorem contains_iff {c : Cell K g} (h : c.Regular) (p : Vec K g) :
    c.contains p = true ↔ c.Has p := by
  rw [has_iff h]
  unfold Cell.contains
  rw [List.all_eq_true]
  constructor
  · intro hall kw hk
    have := hall kw hk
    obtain ⟨-, -, e1, e2⟩ := okay_get (h.okay hk)
    rw [e1, e2] at this
    simpa using this
  · intro hall kw hk
    obtain ⟨-, -, e1, e2⟩ := okay_get (h.okay hk)
    rw [e1, e2]
    simpa using hall kw hk

/-- A point of the path. -/
theorem dot_path (n v x0 dx : Vec K g) (t : K) :
    dot n (x0 + t • dx - v) = t * dot n dx - dot n (v - x0) := by
  rw [dot_sub, dot_add, dot_smul, dot_sub]; ring

/-- What `find_facet` establishes, in terms of the closed cell. -/
structure Found (c : Cell K g) (x0 dx : Vec K g) (facet : Int) (f : K) : Prop where
  range : 0 ≤ f ∧ f ≤ 1
  exit : ∀ t : K, 0 ≤ t → t ≤ 1 → (c.Has (x0 + t • dx) ↔ t ≤ f)
  none_ : facet = -1 → f = 1
  some_ : facet ≠ -1 → ∃ k : Nat, facet = k ∧ k ≤ g ∧ f < 1 ∧ c.OnPlane k (x0 + f • dx) ∧
    ∀ n, c.normals[k]? = some n → 0 < dot n dx

theorem found_of_tested {c : Cell K g} (h : c.Regular) {x0 dx : Vec K g} (hx : c.Has x0)
    {r : Int × K} (ht : Tested c x0 dx (facetTests g) (-1, 1) r) : Found c x0 dx r.1 r.2 := by
  have hx' := (has_iff h x0).1 hx
  have hd : ∀ kw ∈ facetTests g, 0 ≤ dot (nv c kw).1 ((nv c kw).2 - x0) := by
    intro kw hk
    have := hx' kw hk
    rw [dot_sub] at this ⊢
    linarith
  have hfl : ∀ kw ∈ facetTests g, flip (dot (nv c kw).1 ((nv c kw).2 - x0)) =
      dot (nv c kw).1 ((nv c kw).2 - x0) := by
    intro kw hk
    unfold flip
    rw [if_neg (not_lt.2 (hd kw hk))]
  have h0 : 0 ≤ r.2 := ht.nonneg (by simp)
  have h1 : r.2 ≤ 1 := ht.le
  refine ⟨⟨h0, h1⟩, ?_, ?_, ?_⟩
  · intro t ht0 ht1
    rw [has_iff h]
    constructor
    · intro hall
      rcases ht.from_ with hr | ⟨kw, hk, -, hpos, -, heq⟩
      · rw [hr]; exact ht1
      · have := hall kw hk
        rw [dot_path] at this
        rw [hfl kw hk] at heq
        by_contra hlt
        have := mul_lt_mul_of_pos_right (not_le.1 hlt) hpos
        linarith
    · intro hle kw hk
      rw [dot_path]
      by_cases hpos : 0 < dot (nv c kw).1 dx
      · have h2 := ht.min kw hk hpos
        rw [hfl kw hk] at h2
        have := mul_le_mul_of_nonneg_right hle hpos.le
        linarith
      · have := mul_nonneg ht0 (sub_nonneg.2 (not_lt.1 hpos))
        have h2 := hd kw hk
        have : t * dot (nv c kw).1 dx ≤ 0 := by linarith
        linarith
  · intro hn
    rcases ht.from_ with hr | ⟨kw, hk, he, -⟩
    · rw [hr]
    · obtain ⟨k, w, rfl, -, -, -⟩ := tests_mem h.dim hk
      simp only at he
      omega
  · intro hn
    rcases ht.from_ with hr | ⟨kw, hk, he, hpos, hlt, heq⟩
    · rw [hr] at hn; exact absurd rfl hn
    · obtain ⟨k, w, rfl, h2, -, hon⟩ := tests_mem h.dim hk
      refine ⟨k, he, h2, hlt, ?_, ?_⟩
      · rw [onPlane_iff h hk, dot_path, heq, hfl _ hk, sub_self]
      · intro n hnn
        obtain ⟨-, -, e1, -⟩ := okay_get (h.okay hk)
        simp only [Int.toNat_natCast] at e1
        rw [hnn] at e1
        rw [Option.some.inj e1]
        exact hpos

omit [LinearOrder K] [IsStrictOrderedRing K] in
theorem pyGet_nat_of {β : Type} {xs : List β} {k : Nat} {b : β} (h : xs[k]? = some b) :
    pyGet xs (k : Int) = .ok b := by
  rw [TrajSp.pyGet_nat', h]; rfl

/-- In 1D the two normals point in opposite directions. -/
theorem opposite {c : Cell K g} (h : c.Regular) (h1 : g = 1) {dx : Vec K g}
    (hpos : 0 < dot (nv c (0, 0)).1 dx) : dot (nv c (1, 1)).1 dx < 0 := by
  subst h1
  obtain ⟨-, -, n0, v0⟩ := okay_get (h.okay (kw := (0, 0)) (by simp [facetTests]))
  obtain ⟨-, -, n1, v1⟩ := okay_get (h.okay (kw := (1, 1)) (by simp [facetTests]))
  have b0 := h.behind 0 0 1 _ _ _ n0 v0 v1 (by simp [onFacet]) (by simp [onFacet])
  have b1 := h.behind 1 1 0 _ _ _ n1 v1 v0 (by simp [onFacet]) (by simp [onFacet])
  generalize (nv c (0, 0)).1 = N0 at *
  generalize (nv c (1, 1)).1 = N1 at *
  generalize (nv c (0, 0)).2 = V0 at *
  generalize (nv c (1, 1)).2 = V1 at *
  simp only [dot, Fin.sum_univ_one, Pi.sub_apply] at *
  have b1' : 0 < N1 0 * (V1 0 - V0 0) := by linarith
  have p1 : N0 0 * (V1 0 - V0 0) * (N1 0 * (V1 0 - V0 0)) < 0 := mul_neg_of_neg_of_pos b0 b1'
  have p2 : N0 0 * N1 0 < 0 := by
    by_contra hc
    have := mul_nonneg (not_lt.1 hc) (mul_self_nonneg (V1 0 - V0 0))
    linarith
  have hx : dx 0 ≠ 0 := by
    intro h0; rw [h0, mul_zero] at hpos; exact lt_irrefl _ hpos
  have p3 : 0 < dx 0 * dx 0 := mul_self_pos.2 hx
  have p4 := mul_neg_of_neg_of_pos p2 p3
  by_contra hc
  have := mul_nonneg hpos.le (not_lt.1 hc)
  linarith

/-- `find_facet` on a regular cell from a point of the cell. -/
theorem findFacet_ok {M : Mesh K g} {ci : Int} {c : Cell K g} (hc : M.cell ci = some c)
    (h : c.Regular) {x0 dx : Vec K g} (hx : c.Has x0) (hdx : dx ≠ 0) :
    ∃ (facet : Int) (f : K) (n : Vec K g),
      M.findFacet x0 dx ci = .ok (facet, f, some n) ∧ Found c x0 dx facet f ∧
      (facet ≠ -1 → c.normals[facet.toNat]? = some n) := by
  have hd : dot dx dx ≠ 0 := fun h0 => hdx (dot_self_eq_zero.1 h0)
  -- the normal read at the end
  have hnorm : ∀ (facet : Int) (f : K), Found c x0 dx facet f → ∃ n,
      pyGet c.normals facet = .ok n ∧ (facet ≠ -1 → c.normals[facet.toNat]? = some n) := by
    intro facet f hf
    by_cases hneg : facet = -1
    · subst hneg
      have hl : c.normals.length - 1 < c.normals.length := by rw [h.normals]; omega
      refine ⟨c.normals[c.normals.length - 1], ?_, fun hh => absurd rfl hh⟩
      unfold pyGet
      rw [if_neg (by omega), if_pos (by rw [h.normals]; omega)]
      have : (-1 + (c.normals.length : Int)).toNat = c.normals.length - 1 := by omega
      rw [this, List.getElem?_eq_getElem hl]; rfl
    · obtain ⟨k, rfl, hk, -, -, -⟩ := hf.some_ hneg
      have hl : k < c.normals.length := by rw [h.normals]; omega
      refine ⟨c.normals[k], pyGet_nat_of (List.getElem?_eq_getElem hl), fun _ => ?_⟩
      rw [Int.toNat_natCast, List.getElem?_eq_getElem hl]
  have multi : g = 2 ∨ g = 3 → ∃ (facet : Int) (f : K) (n : Vec K g),
      findFacetMulti c x0 dx = .ok (facet, f, some n) ∧ Found c x0 dx facet f ∧
      (facet ≠ -1 → c.normals[facet.toNat]? = some n) := by
    intro _
    obtain ⟨r, e, ht⟩ := testAll_ok x0 dx (facetTests g) (-1, 1) (fun kw hk => h.okay hk)
    have hf := found_of_tested h hx ht
    obtain ⟨n, e2, hn⟩ := hnorm _ _ hf
    refine ⟨r.1, r.2, n, ?_, hf, hn⟩
    unfold findFacetMulti
    rw [if_neg hd]
    simp only [noFacet, bind, Except.bind, e]
    rw [if_neg (by rw [not_or, not_lt, not_lt]; exact ⟨hf.range.2, hf.range.1⟩), e2]
    rfl
  have one : g = 1 → ∃ (facet : Int) (f : K) (n : Vec K g),
      findFacet1 c x0 dx = .ok (facet, f, some n) ∧ Found c x0 dx facet f ∧
      (facet ≠ -1 → c.normals[facet.toNat]? = some n) := by
    intro hg
    have hL : facetTests g = [(0, 0), (1, 1)] := by subst hg; rfl
    have o0 : Okay c (0, 0) := h.okay (by rw [hL]; simp)
    have o1 : Okay c (1, 1) := h.okay (by rw [hL]; simp)
    obtain ⟨r0, e0, t0⟩ := testOne o0 x0 dx (-1, 1)
    obtain ⟨r1, e1, t1⟩ := testOne o1 x0 dx (-1, 1)
    unfold findFacet1
    rw [if_neg hd]
    simp only [noFacet, bind, Except.bind]
    simp only at e0 e1
    rw [e0]
    simp only
    by_cases hc0 : r0.1 = 0
    · have ht : Tested c x0 dx (facetTests g) (-1, 1) r0 := by
        rw [hL]
        rcases t0.from_ with hr | ⟨kw, hk, h1, h2, h3, h4⟩
        · rw [hr] at hc0; simp at hc0
        · simp only [List.mem_singleton] at hk
          subst hk
          refine ⟨t0.le, t0.nonneg, ?_, .inr ⟨_, by simp, h1, h2, h3, h4⟩⟩
          intro kw hk hpos
          simp only [List.mem_cons, List.not_mem_nil, or_false] at hk
          rcases hk with rfl | rfl
          · exact t0.min _ (by simp) hpos
          · exact absurd (opposite h hg h2) (not_lt.2 hpos.le)
      have hf := found_of_tested h hx ht
      obtain ⟨n, e2, hn⟩ := hnorm _ _ hf
      refine ⟨r0.1, r0.2, n, ?_, hf, hn⟩
      rw [if_pos hc0, e2]
      rfl
    · have hr0 : r0 = (-1, 1) := by
        rcases t0.from_ with hr | ⟨kw, hk, h1, -⟩
        · exact hr
        · simp only [List.mem_singleton] at hk
          subst hk
          exact absurd h1 hc0
      have ht : Tested c x0 dx (facetTests g) (-1, 1) r1 := by
        rw [hL]
        refine ⟨t1.le, t1.nonneg, ?_, ?_⟩
        · intro kw hk hpos
          simp only [List.mem_cons, List.not_mem_nil, or_false] at hk
          rcases hk with rfl | rfl
          · have := t0.min _ (by simp) hpos
            rw [hr0] at this
            exact (mul_le_mul_of_nonneg_right t1.le hpos.le).trans this
          · exact t1.min _ (by simp) hpos
        · rcases t1.from_ with hr | ⟨kw, hk, hrest⟩
          · exact .inl hr
          · exact .inr ⟨kw, by simp at hk; simp [hk], hrest⟩
      have hf := found_of_tested h hx ht
      obtain ⟨n, e2, hn⟩ := hnorm _ _ hf
      refine ⟨r1.1, r1.2, n, ?_, hf, hn⟩
      rw [if_neg hc0, e1]
      simp only
      by_cases hc1 : r1.1 = 1
      · rw [if_pos hc1, e2]; rfl
      · rw [if_neg hc1,
          if_neg (by rw [not_or, not_lt, not_lt]; exact ⟨hf.range.2, hf.range.1⟩), e2]
        rfl
  unfold Mesh.findFacet
  rw [if_neg hd]
  have hl : M.lookup ci = .ok c := by unfold Mesh.lookup; rw [hc]
  rcases dim_cases h.dim with hg | hg | hg
  · obtain ⟨facet, f, n, e, hrest⟩ := one hg
    refine ⟨facet, f, n, ?_, hrest⟩
    subst hg
    simp only [bind, Except.bind, hl]
    exact e
  · obtain ⟨facet, f, n, e, hrest⟩ := multi (.inl hg)
    refine ⟨facet, f, n, ?_, hrest⟩
    subst hg
    simp only [bind, Except.bind, hl]
    exact e
  · obtain ⟨facet, f, n, e, hrest⟩ := multi (.inr hg)
    refine ⟨facet, f, n, ?_, hrest⟩
    subst hg
    simp only [bind, Except.bind, hl]
    exact e

end Dt
