import Verif.Lemmas.Billiard
import Verif.Lemmas.RectMesh

/-!
# A bound on the number of crossings in a rectangle
-/

set_option linter.unusedSectionVars false
set_option linter.unusedTactic false
set_option linter.unreachableTactic false

namespace Dt
variable {K : Type} [Field K] [LinearOrder K] [IsStrictOrderedRing K] {g : Nat} {τ ρ ι : Type}

/-- A crossing in a domain with walls, with the cell and the facet. -/
structure Passed (M : Mesh K g) (walls : ι → Wall K g) (wallOf : Int → ι) (s s' : Trk K g τ ρ) (brk : Bool)
    (c : Cell K g) (k : Nat) (n : Vec K g) (f : K) (F new : Int) : Prop where
  cell : M.cell s.cell = some c
  normal : c.normals[k]? = some n
  facet : c.facets[k]? = some F
  next : c.neighbors[k]? = some new
  range : 0 ≤ f ∧ f < 1
  pos : 0 < dot n (s.part.x - s.part.x0)
  inner : new ≠ -1 → s'.cell = new ∧ s'.part.x = s.part.x ∧ s'.part.x0 = wayPoint s.part.x0 s.part.x f ∧
    s'.part.del = false ∧ brk = false
  mirror : new = -1 → (walls (wallOf F)).mirror = true → s'.cell = s.cell ∧
    s'.part.x = s.part.x - (2 * dot n (s.part.x - wayPoint s.part.x0 s.part.x f)) • n ∧
    s'.part.x0 = wayPoint s.part.x0 s.part.x f ∧ s'.part.del = false ∧ brk = false
  hole : new = -1 → (walls (wallOf F)).mirror = false → brk = true
  on : new = -1 → (walls (wallOf F)).on (wayPoint s.part.x0 s.part.x f)

section
variable {M : Mesh K g} {walls : ι → Wall K g} {wallOf : Int → ι}
  {bc : Int → τ → BCall K g g ρ → Except Err (τ × Part K g ρ)}

theorem passed (hM : M.Conforming) {v : Variant} (hv : v.sharesDx = true ∨ ∀ w, (walls w).mirror = false)
    (hw : Walled M walls wallOf) (hb : BilliardBC M walls wallOf bc) {s s' : Trk K g τ ρ} {brk : Bool}
    (hs : Sound (le_refl g) M s) (hlive : s.part.del = false)
    (hout : M.isInside (proj (le_refl g) s.part.x) s.cell = .ok false)
    (e : crossOnce (le_refl g) M v bc s = .ok (s', brk)) :
    ∃ c k n f F new, Passed M walls wallOf s s' brk c k n f F new := by
  obtain ⟨c, hcell, hx0, -⟩ := hs.ex
  have hr := hM.regular _ _ hcell
  have hnot := ((isInside_iff hcell hr _).2).1 hout
  rw [proj_eq] at hx0 hnot
  have hdx : proj (le_refl g) (s.part.x - s.part.x0) ≠ 0 := by
    rw [proj_eq]
    intro h0
    exact hnot (by rw [sub_eq_zero.1 h0]; exact hx0)
  obtain ⟨facet, f, n, ef, hf, hn⟩ := findFacet_ok hcell hr (x0 := proj (le_refl g) s.part.x0) hx0 hdx
  obtain ⟨cFacet, mFacet, new, f', n', c', st1, q, q1, evs, e1, hne, hcell', hm, -, hnew, hq, hev, -,
    -, -, -, -, -, -, hres⟩ := (crossOnce_ok e).ex
  rw [ef] at e1
  simp only [Except.ok.injEq, Prod.mk.injEq] at e1
  obtain ⟨rfl, rfl, rfl⟩ := e1
  rw [hcell] at hcell'
  cases hcell'
  obtain ⟨kk, rfl, hk, hf1, hpl, hpos⟩ := hf.some_ hne
  have hn' := hn hne
  rw [Int.toNat_natCast] at hn'
  have hm' := pyGet_some hm
  have hnew' := pyGet_some hnew
  have hpos' := hpos n hn'
  simp only [proj_eq] at hpos' hpl
  have hhas : c.Has (s.part.x0 + f • (s.part.x - s.part.x0)) := (hf.exit f hf.range.1 hf.range.2).2 (le_refl _)
  refine ⟨c, kk, n, f, mFacet, new, hcell, hn', hm', hnew', ⟨hf.range.1, hf1⟩, hpos', ?_, ?_, ?_, ?_⟩
  · intro hb1
    rw [if_neg hb1] at hres
    obtain ⟨hc1, hbrk, hp⟩ := hres
    have hI : M.Interior mFacet := ⟨s.cell, c, kk, new, hcell, hm', hnew', hb1⟩
    have hq1 : q1 = q := by
      by_cases h0 : M.marker mFacet = 0
      · rw [if_pos h0] at hev
        exact hev.2.1
      · rw [if_neg h0] at hev
        rcases hb.inner _ (fun n hn => hb.split _ n hn hI) s.st
          ⟨q, mFacet, f, some n, if v.sharesDx then s.part.x - s.part.x0 else s.dxS⟩ rfl with ⟨s0, h1⟩ | ⟨-, er, h1⟩
        · have h2 := hev.1
          rw [h1] at h2; cases h2; rfl
        · have h2 := hev.1
          rw [h1] at h2; cases h2
    refine ⟨hc1, ?_, ?_, ?_, hbrk⟩
    · rw [hp, hq1, hq]
    · rw [hp, hq1, hq]; rfl
    · rw [hp, hq1, hq]; exact hlive
  all_goals
    intro hb1
    subst hb1
    rw [if_pos rfl] at hres
    have hB : M.Boundary mFacet n := ⟨s.cell, c, kk, hcell, hm', hnew', hn'⟩
    have hmk := hM.marked _ _ kk _ hcell hnew' hm'
    rw [if_neg hmk] at hev
    obtain ⟨s0, h1⟩ := hb.outer _ n hB s.st ⟨q, mFacet, f, some n, if v.sharesDx then s.part.x - s.part.x0 else s.dxS⟩ rfl
    rw [h1] at hev
    have hon := hw.on _ _ kk _ _ hcell hnew' hm' hhas hpl
  · intro hmir
    rcases mirror_hole (n := n) rfl hev.1 with ⟨hL, h2⟩ | ⟨hL, h2⟩
    · have hd : q1.del = false := by rw [h2, hq]; exact hlive
      rw [hd] at hres
      obtain ⟨hc1, hbrk, hp⟩ := hres
      simp only [Bool.false_eq_true, if_false] at hp
      have hv' := hv.resolve_right fun h => by rw [h] at hL; cases hL
      refine ⟨hc1, ?_, ?_, by rw [hp]; exact hd, hbrk⟩
      · rw [hp, h2, hq]
        simp only [if_pos hv', wayPoint_rest]
      · rw [hp, h2, hq]; rfl
    · rw [hL] at hmir; cases hmir
  · intro hmir
    rcases mirror_hole (n := n) rfl hev.1 with ⟨hL, h2⟩ | ⟨hL, h2⟩
    · rw [hL] at hmir; cases hmir
    · have hd : q1.del = true := by rw [h2]
      rw [hd] at hres
      exact hres.2.1
  · exact hon

end

namespace Rect
variable {x y : Nat → K} {d : Nat → Nat → Bool} {nx ny : Nat} {marker : Int → Int} {m : Side → Bool}

/-- How many crossings a particle in triangle `t` of box `(i, j)` on its way from `x0` to `z` has left. -/
structure Budget (x y : Nat → K) (d : Nat → Nat → Bool) (nx ny : Nat) (m : Side → Bool) (i j : Nat) (t : Bool)
    (x0 z : Vec K 2) (r r' V H D left : Nat) : Prop where
  wx : Within (m .left) (m .right) (x 0) (x nx) r (z 0)
  wy : Within (m .bottom) (m .top) (y 0) (y ny) r' (z 1)
  right : 0 < z 0 - x0 0 → nx - 1 - i + r * nx ≤ V
  left' : z 0 - x0 0 < 0 → i + r * nx ≤ V
  top : 0 < z 1 - x0 1 → ny - 1 - j + r' * ny ≤ H
  bottom : z 1 - x0 1 < 0 → j + r' * ny ≤ H
  diag : 0 < dot (normal (x (i + 1) - x i) (y (j + 1) - y j) (d i j) t .diag) (z - x0) → 1 ≤ D
  le : 2 * (V + H) + D + 1 ≤ left

theorem Within.above {lo hi : Bool} {a b z : K} {r : Nat} (h : Within lo hi a b r z) (hz : b < z) (hm : hi = true) :
    ∃ r', r = r' + 1 ∧ Within lo hi a b r' (2 * b - z) := by
  cases r with
  | zero => rw [h.1 hz] at hm; cases hm
  | succ r => exact ⟨r, rfl, h.1 hz hm⟩

theorem Within.below {lo hi : Bool} {a b z : K} {r : Nat} (h : Within lo hi a b r z) (hz : z < a) (hm : lo = true) :
    ∃ r', r = r' + 1 ∧ Within lo hi a b r' (2 * a - z) := by
  cases r with
  | zero => rw [h.2 hz] at hm; cases hm
  | succ r => exact ⟨r, rfl, h.2 hz hm⟩

theorem way_sub (a b : Vec K 2) (f : K) (r : Fin 2) : b r - wayPoint a b f r = (1 - f) * (b r - a r) := by
  simp only [wayPoint, Pi.add_apply, Pi.smul_apply, Pi.sub_apply, smul_eq_mul]; ring

theorem pos_of_way {f u : K} (hf : f < 1) (h : 0 < (1 - f) * u) : 0 < u :=
  (mul_pos_iff_of_pos_left (sub_pos.2 hf)).1 h

theorem neg_of_way {f u : K} (hf : f < 1) (h : (1 - f) * u < 0) : u < 0 := by
  by_contra h0
  exact absurd h (not_lt.2 (mul_nonneg (sub_pos.2 hf).le (not_lt.1 h0)))

variable {bc : Int → τ → BCall K 2 2 ρ → Except Err (τ × Part K 2 ρ)}

/-- One crossing uses up one unit of the budget. -/
theorem budget_cross (hnx : 1 ≤ nx) (hny : 1 ≤ ny) {s s' : Trk K 2 τ ρ} {c : Cell K 2} {k : Nat} {n : Vec K 2} {f : K}
    {F new : Int} {i j : Nat} {t : Bool} (hi : i < nx) (hj : j < ny) (hc : s.cell = cellNo nx i j t)
    (hce : c = cell x y d nx ny i j t)
    (hp : Passed (mesh x y d nx ny marker) (walls (x 0) (x nx) (y 0) (y ny) m) (sideOf nx) s s' false c k n f F new)
    {r r' V H D left : Nat} (hB : Budget x y d nx ny m i j t s.part.x0 s.part.x r r' V H D (left + 1)) :
    ∃ i' j' t' r1 r1' V' H' D', i' < nx ∧ j' < ny ∧ s'.cell = cellNo nx i' j' t' ∧
      Budget x y d nx ny m i' j' t' s'.part.x0 s'.part.x r1 r1' V' H' D' left := by
  subst hce
  obtain ⟨e, he, rfl⟩ := map_get hp.normal
  obtain ⟨e1, he1, hF⟩ := map_get hp.facet
  obtain ⟨e2, he2, hN⟩ := map_get hp.next
  rw [he] at he1 he2
  cases he1; cases he2
  have hpos := hp.pos
  have hf1 := hp.range.2
  obtain ⟨wx, wy, br, bl, bt, bb, bd, ble⟩ := hB
  by_cases h1 : new = -1
  · -- a mirror
    subst h1
    have hmir : (walls (x 0) (x nx) (y 0) (y ny) m (sideOf nx F)).mirror = true := by
      cases hh : (walls (x 0) (x nx) (y 0) (y ny) m (sideOf nx F)).mirror with
      | true => rfl
      | false => have := hp.hole rfl hh; cases this
    obtain ⟨g1, g2, g3, -, -⟩ := hp.mirror rfl hmir
    have hon := hp.on rfl
    rw [g1, g2, g3]
    have sx : ∀ q, s.part.x q - wayPoint s.part.x0 s.part.x f q = (1 - f) * (s.part.x q - s.part.x0 q) := way_sub _ _ _
    cases e <;> simp only [across] at hN
    · split at hN
      swap
      · exact absurd hN (cellNo_ne _ _ _ _)
      rename_i h0
      have hside : sideOf nx F = .left := by rw [← hF]; exact sideOf_of hnx hny ⟨j, hj, by rw [← h0]; rfl⟩
      rw [hside] at hmir hon
      have hmir' : m .left = true := hmir
      have hon' : wayPoint s.part.x0 s.part.x f 0 = x 0 := hon
      have hsgn : s.part.x 0 - s.part.x0 0 < 0 := by simp [normal, dotP] at hpos; linarith
      have hbey : s.part.x 0 < x 0 := by
        have h2 := sx 0
        rw [hon'] at h2
        nlinarith [mul_neg_of_pos_of_neg (sub_pos.2 hf1) hsgn]
      obtain ⟨r1, rfl, w1⟩ := wx.below hbey hmir'
      have hV := bl hsgn
      have z0 : (s.part.x - (2 * dot (normal (x (i + 1) - x i) (y (j + 1) - y j) (d i j) t .left)
          (s.part.x - wayPoint s.part.x0 s.part.x f)) • normal (x (i + 1) - x i) (y (j + 1) - y j) (d i j) t .left) 0 =
          2 * x 0 - s.part.x 0 := by
        simp only [normal, dotP, Pi.sub_apply, Pi.smul_apply, smul_eq_mul, Matrix.cons_val_zero, Matrix.cons_val_one, hon']
        ring
      have z1 : (s.part.x - (2 * dot (normal (x (i + 1) - x i) (y (j + 1) - y j) (d i j) t .left)
          (s.part.x - wayPoint s.part.x0 s.part.x f)) • normal (x (i + 1) - x i) (y (j + 1) - y j) (d i j) t .left) 1 =
          s.part.x 1 := by
        simp only [normal, dotP, Pi.sub_apply, Pi.smul_apply, smul_eq_mul, Matrix.cons_val_zero, Matrix.cons_val_one]
        ring
      rw [Nat.add_mul, Nat.one_mul] at hV
      refine ⟨i, j, t, r1, r', V - 1, H, 1, hi, hj, hc, (by rw [z0]; exact w1), (by rw [z1]; exact wy), ?_, ?_, ?_, ?_, fun _ => le_refl _, by omega⟩
      · intro h; rw [z0, hon'] at h; first | (exfalso; linarith) | omega
      · intro h; rw [z0, hon'] at h; first | (exfalso; linarith) | omega
      · intro h; rw [z1, sx] at h; exact bt (pos_of_way hf1 h)
      · intro h; rw [z1, sx] at h; exact bb (neg_of_way hf1 h)
    · split at hN
      swap
      · exact absurd hN (cellNo_ne _ _ _ _)
      rename_i h0
      have hside : sideOf nx F = .right := by rw [← hF]; exact sideOf_of hnx hny ⟨j, hj, by rw [← h0]; rfl⟩
      rw [hside] at hmir hon
      have hmir' : m .right = true := hmir
      have hon' : wayPoint s.part.x0 s.part.x f 0 = x nx := hon
      have hsgn : 0 < s.part.x 0 - s.part.x0 0 := by simp [normal, dotP] at hpos; linarith
      have hbey : x nx < s.part.x 0 := by
        have h2 := sx 0
        rw [hon'] at h2
        nlinarith [mul_pos (sub_pos.2 hf1) hsgn]
      obtain ⟨r1, rfl, w1⟩ := wx.above hbey hmir'
      have hV := br hsgn
      have z0 : (s.part.x - (2 * dot (normal (x (i + 1) - x i) (y (j + 1) - y j) (d i j) t .right)
          (s.part.x - wayPoint s.part.x0 s.part.x f)) • normal (x (i + 1) - x i) (y (j + 1) - y j) (d i j) t .right) 0 =
          2 * x nx - s.part.x 0 := by
        simp only [normal, dotP, Pi.sub_apply, Pi.smul_apply, smul_eq_mul, Matrix.cons_val_zero, Matrix.cons_val_one, hon']
        ring
      have z1 : (s.part.x - (2 * dot (normal (x (i + 1) - x i) (y (j + 1) - y j) (d i j) t .right)
          (s.part.x - wayPoint s.part.x0 s.part.x f)) • normal (x (i + 1) - x i) (y (j + 1) - y j) (d i j) t .right) 1 =
          s.part.x 1 := by
        simp only [normal, dotP, Pi.sub_apply, Pi.smul_apply, smul_eq_mul, Matrix.cons_val_zero, Matrix.cons_val_one]
        ring
      rw [Nat.add_mul, Nat.one_mul] at hV
      refine ⟨i, j, t, r1, r', V - 1, H, 1, hi, hj, hc, (by rw [z0]; exact w1), (by rw [z1]; exact wy), ?_, ?_, ?_, ?_, fun _ => le_refl _, by omega⟩
      · intro h; rw [z0, hon'] at h; first | (exfalso; linarith) | omega
      · intro h; rw [z0, hon'] at h; first | (exfalso; linarith) | omega
      · intro h; rw [z1, sx] at h; exact bt (pos_of_way hf1 h)
      · intro h; rw [z1, sx] at h; exact bb (neg_of_way hf1 h)
    · split at hN
      swap
      · exact absurd hN (cellNo_ne _ _ _ _)
      rename_i h0
      have hside : sideOf nx F = .bottom := by rw [← hF]; exact sideOf_of hnx hny ⟨i, hi, by rw [← h0]; rfl⟩
      rw [hside] at hmir hon
      have hmir' : m .bottom = true := hmir
      have hon' : wayPoint s.part.x0 s.part.x f 1 = y 0 := hon
      have hsgn : s.part.x 1 - s.part.x0 1 < 0 := by simp [normal, dotP] at hpos; linarith
      have hbey : s.part.x 1 < y 0 := by
        have h2 := sx 1
        rw [hon'] at h2
        nlinarith [mul_neg_of_pos_of_neg (sub_pos.2 hf1) hsgn]
      obtain ⟨r1, rfl, w1⟩ := wy.below hbey hmir'
      have hV := bb hsgn
      have z0 : (s.part.x - (2 * dot (normal (x (i + 1) - x i) (y (j + 1) - y j) (d i j) t .bottom)
          (s.part.x - wayPoint s.part.x0 s.part.x f)) • normal (x (i + 1) - x i) (y (j + 1) - y j) (d i j) t .bottom) 1 =
          2 * y 0 - s.part.x 1 := by
        simp only [normal, dotP, Pi.sub_apply, Pi.smul_apply, smul_eq_mul, Matrix.cons_val_zero, Matrix.cons_val_one, hon']
        ring
      have z1 : (s.part.x - (2 * dot (normal (x (i + 1) - x i) (y (j + 1) - y j) (d i j) t .bottom)
          (s.part.x - wayPoint s.part.x0 s.part.x f)) • normal (x (i + 1) - x i) (y (j + 1) - y j) (d i j) t .bottom) 0 =
          s.part.x 0 := by
        simp only [normal, dotP, Pi.sub_apply, Pi.smul_apply, smul_eq_mul, Matrix.cons_val_zero, Matrix.cons_val_one]
        ring
      rw [Nat.add_mul, Nat.one_mul] at hV
      refine ⟨i, j, t, r, r1, V, H - 1, 1, hi, hj, hc, (by rw [z1]; exact wx), (by rw [z0]; exact w1), ?_, ?_, ?_, ?_, fun _ => le_refl _, by omega⟩
      · intro h; rw [z1, sx] at h; exact br (pos_of_way hf1 h)
      · intro h; rw [z1, sx] at h; exact bl (neg_of_way hf1 h)
      · intro h; rw [z0, hon'] at h; first | (exfalso; linarith) | omega
      · intro h; rw [z0, hon'] at h; first | (exfalso; linarith) | omega
    · split at hN
      swap
      · exact absurd hN (cellNo_ne _ _ _ _)
      rename_i h0
      have hside : sideOf nx F = .top := by rw [← hF]; exact sideOf_of hnx hny ⟨i, hi, by rw [← h0]; rfl⟩
      rw [hside] at hmir hon
      have hmir' : m .top = true := hmir
      have hon' : wayPoint s.part.x0 s.part.x f 1 = y ny := hon
      have hsgn : 0 < s.part.x 1 - s.part.x0 1 := by simp [normal, dotP] at hpos; linarith
      have hbey : y ny < s.part.x 1 := by
        have h2 := sx 1
        rw [hon'] at h2
        nlinarith [mul_pos (sub_pos.2 hf1) hsgn]
      obtain ⟨r1, rfl, w1⟩ := wy.above hbey hmir'
      have hV := bt hsgn
      have z0 : (s.part.x - (2 * dot (normal (x (i + 1) - x i) (y (j + 1) - y j) (d i j) t .top)
          (s.part.x - wayPoint s.part.x0 s.part.x f)) • normal (x (i + 1) - x i) (y (j + 1) - y j) (d i j) t .top) 1 =
          2 * y ny - s.part.x 1 := by
        simp only [normal, dotP, Pi.sub_apply, Pi.smul_apply, smul_eq_mul, Matrix.cons_val_zero, Matrix.cons_val_one, hon']
        ring
      have z1 : (s.part.x - (2 * dot (normal (x (i + 1) - x i) (y (j + 1) - y j) (d i j) t .top)
          (s.part.x - wayPoint s.part.x0 s.part.x f)) • normal (x (i + 1) - x i) (y (j + 1) - y j) (d i j) t .top) 0 =
          s.part.x 0 := by
        simp only [normal, dotP, Pi.sub_apply, Pi.smul_apply, smul_eq_mul, Matrix.cons_val_zero, Matrix.cons_val_one]
        ring
      rw [Nat.add_mul, Nat.one_mul] at hV
      refine ⟨i, j, t, r, r1, V, H - 1, 1, hi, hj, hc, (by rw [z1]; exact wx), (by rw [z0]; exact w1), ?_, ?_, ?_, ?_, fun _ => le_refl _, by omega⟩
      · intro h; rw [z1, sx] at h; exact br (pos_of_way hf1 h)
      · intro h; rw [z1, sx] at h; exact bl (neg_of_way hf1 h)
      · intro h; rw [z0, hon'] at h; first | (exfalso; linarith) | omega
      · intro h; rw [z0, hon'] at h; first | (exfalso; linarith) | omega
    · exact absurd hN (cellNo_ne _ _ _ _)
  · obtain ⟨g1, g2, g3, -, -⟩ := hp.inner h1
    rw [g1, g2, g3]
    have sx : ∀ q, s.part.x q - wayPoint s.part.x0 s.part.x f q = (1 - f) * (s.part.x q - s.part.x0 q) := way_sub _ _ _
    cases e <;> simp only [across] at hN
    · split at hN
      · exact absurd hN.symm h1
      · rename_i h0
        have hsgn : s.part.x 0 - s.part.x0 0 < 0 := by simp [normal, dotP] at hpos; linarith
        have hV := bl hsgn
        refine ⟨i - 1, j, _, r, r', V - 1, H, 1, by omega, hj, hN.symm, wx, wy, ?_, ?_, ?_, ?_, fun _ => le_refl _, by omega⟩
        · intro h; rw [sx] at h; have := pos_of_way hf1 h; first | (exfalso; linarith) | omega
        · intro h; rw [sx] at h; have := neg_of_way hf1 h; first | (exfalso; linarith) | omega
        · intro h; rw [sx] at h; exact bt (pos_of_way hf1 h)
        · intro h; rw [sx] at h; exact bb (neg_of_way hf1 h)
    · split at hN
      · exact absurd hN.symm h1
      · rename_i h0
        have hsgn : 0 < s.part.x 0 - s.part.x0 0 := by simp [normal, dotP] at hpos; linarith
        have hV := br hsgn
        refine ⟨i + 1, j, _, r, r', V - 1, H, 1, by omega, hj, hN.symm, wx, wy, ?_, ?_, ?_, ?_, fun _ => le_refl _, by omega⟩
        · intro h; rw [sx] at h; have := pos_of_way hf1 h; first | (exfalso; linarith) | omega
        · intro h; rw [sx] at h; have := neg_of_way hf1 h; first | (exfalso; linarith) | omega
        · intro h; rw [sx] at h; exact bt (pos_of_way hf1 h)
        · intro h; rw [sx] at h; exact bb (neg_of_way hf1 h)
    · split at hN
      · exact absurd hN.symm h1
      · rename_i h0
        have hsgn : s.part.x 1 - s.part.x0 1 < 0 := by simp [normal, dotP] at hpos; linarith
        have hV := bb hsgn
        refine ⟨i, j - 1, _, r, r', V, H - 1, 1, hi, by omega, hN.symm, wx, wy, ?_, ?_, ?_, ?_, fun _ => le_refl _, by omega⟩
        · intro h; rw [sx] at h; exact br (pos_of_way hf1 h)
        · intro h; rw [sx] at h; exact bl (neg_of_way hf1 h)
        · intro h; rw [sx] at h; have := pos_of_way hf1 h; first | (exfalso; linarith) | omega
        · intro h; rw [sx] at h; have := neg_of_way hf1 h; first | (exfalso; linarith) | omega
    · split at hN
      · exact absurd hN.symm h1
      · rename_i h0
        have hsgn : 0 < s.part.x 1 - s.part.x0 1 := by simp [normal, dotP] at hpos; linarith
        have hV := bt hsgn
        refine ⟨i, j + 1, _, r, r', V, H - 1, 1, hi, by omega, hN.symm, wx, wy, ?_, ?_, ?_, ?_, fun _ => le_refl _, by omega⟩
        · intro h; rw [sx] at h; exact br (pos_of_way hf1 h)
        · intro h; rw [sx] at h; exact bl (neg_of_way hf1 h)
        · intro h; rw [sx] at h; have := pos_of_way hf1 h; first | (exfalso; linarith) | omega
        · intro h; rw [sx] at h; have := neg_of_way hf1 h; first | (exfalso; linarith) | omega
    · have hD := bd hpos
      refine ⟨i, j, !t, r, r', V, H, 0, hi, hj, hN.symm, wx, wy, ?_, ?_, ?_, ?_, ?_, by omega⟩
      · intro h; rw [sx] at h; exact br (pos_of_way hf1 h)
      · intro h; rw [sx] at h; exact bl (neg_of_way hf1 h)
      · intro h; rw [sx] at h; exact bt (pos_of_way hf1 h)
      · intro h; rw [sx] at h; exact bb (neg_of_way hf1 h)
      · intro h
        exfalso
        rw [normal_diag, dotP] at h
        rw [dotP] at hpos
        simp only [Pi.neg_apply, Pi.sub_apply, sx] at h hpos
        nlinarith [mul_pos (sub_pos.2 hf1) hpos]

/-- Tracking in a rectangle succeeds within the budget. -/
theorem track_budget (hnx : 1 ≤ nx) (hny : 1 ≤ ny) (hM : (mesh x y d nx ny marker).Conforming) {v : Variant}
    (hv : v.sharesDx = true ∨ ∀ w, m w = false) (hd : v.datum = .ok ())
    (hw : Walled (mesh x y d nx ny marker) (walls (x 0) (x nx) (y 0) (y ny) m) (sideOf nx))
    (hb : BilliardBC (mesh x y d nx ny marker) (walls (x 0) (x nx) (y 0) (y ny) m) (sideOf nx) bc) (left : Nat) :
    ∀ {s : Trk K 2 τ ρ} {i j t r r' V H D}, Sound (le_refl 2) (mesh x y d nx ny marker) s → s.part.del = false →
    i < nx → j < ny → s.cell = cellNo nx i j t →
    Budget x y d nx ny m i j t s.part.x0 s.part.x r r' V H D left →
    ∃ s', track (le_refl 2) (mesh x y d nx ny marker) v bc left s = .ok s' := by
  have hv' : v.sharesDx = true ∨ ∀ w, (walls (x 0) (x nx) (y 0) (y ny) m w).mirror = false :=
    hv.imp id fun h w => by rw [walls_mirror]; exact h w
  induction left with
  | zero =>
    intro s i j t r r' V H D _ _ _ _ _ hB
    exact absurd hB.le (by omega)
  | succ left ih =>
    intro s i j t r r' V H D hs hl hi hj hc hB
    obtain ⟨c, hcell, hx0, -⟩ := hs.ex
    have hI : ∃ b, (mesh x y d nx ny marker).isInside (proj (le_refl 2) s.part.x) s.cell = .ok b := by
      have hr := hM.regular _ _ hcell
      by_cases h : c.Has (proj (le_refl 2) s.part.x)
      · exact ⟨true, ((isInside_iff hcell hr _).1).2 h⟩
      · exact ⟨false, ((isInside_iff hcell hr _).2).2 h⟩
    obtain ⟨b, hI⟩ := hI
    unfold track
    rw [hI]
    cases b with
    | true => exact ⟨s, rfl⟩
    | false =>
      simp only [bind, Except.bind, Bool.false_eq_true, if_false]
      obtain ⟨s1, brk, hcr, hs1⟩ := cross_sound hM hd (hb.good hw hv') hs hI
      rw [hcr]
      simp only
      obtain ⟨c', k, n, f, F, new, hp⟩ := passed hM hv' hw hb hs hl hI hcr
      cases brk with
      | true => exact ⟨s1, rfl⟩
      | false =>
        simp only [Bool.false_eq_true, if_false]
        have hce : c' = cell x y d nx ny i j t := by
          have := hp.cell
          rw [hc, cell_at hi hj] at this
          exact (Option.some.inj this).symm
        obtain ⟨i', j', t', r1, r1', V', H', D', hi', hj', hc', hB'⟩ := budget_cross hnx hny hi hj hc hce hp hB
        have hdel : s1.part.del = false := by
          by_cases h1 : new = -1
          · cases hm : (walls (x 0) (x nx) (y 0) (y ny) m (sideOf nx F)).mirror with
            | true => exact (hp.mirror h1 hm).2.2.2.1
            | false => have := hp.hole h1 hm; cases this
          · exact (hp.inner h1).2.2.2.1
        exact ih (hs1 rfl) hdel hi' hj' hc' hB'

end Rect
end Dt
