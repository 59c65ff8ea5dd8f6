import Verif.Lemmas.LineMesh
import Verif.Lemmas.Straight

/-! # Crossings on the one-dimensional mesh -/

namespace Dt
variable {K : Type} [Field K] [LinearOrder K] [IsStrictOrderedRing K] {p : Nat} {τ ρ : Type}

/-- The remaining move in the direction of the mesh. -/
def ahead (h : 1 ≤ p) (s : Trk K p τ ρ) : K := proj h (s.part.x - s.part.x0) 0

/-- A crossing that does not end the search leads to the next cell in the direction of the move. -/
theorem line_cross {x : Nat → K} {N : Nat} {marker : Int → Int} {h : 1 ≤ p} {v : Variant}
    (hM : (lineMesh x N marker).Conforming)
    {bc : Int → τ → BCall K 1 p ρ → Except Err (τ × Part K p ρ)}
    (hbc : GoodBC h (lineMesh x N marker) (v.sharesDx = true) bc) (ha : Absorbs (lineMesh x N marker) bc)
    {s s' : Trk K p τ ρ} {i : Nat} (hi : s.cell = i) (hs : Sound h (lineMesh x N marker) s)
    (hout : (lineMesh x N marker).isInside (proj h s.part.x) s.cell = .ok false)
    (hc : Crossed h (lineMesh x N marker) v bc s s' false) :
    (0 < ahead h s ∧ s'.cell = (i : Int) + 1 ∧ 0 < ahead h s') ∨
      (ahead h s < 0 ∧ s'.cell = (i : Int) - 1 ∧ ahead h s' < 0) := by
  obtain ⟨c, k, f, n, ht⟩ := cross_through hM hbc ha hs hout hc
  obtain ⟨j, hj, hjN, rfl⟩ := lineMesh_cell ht.cell
  have hij : j = i := by omega
  subst hij
  have hf1 : 0 < 1 - f := by linarith [ht.lt]
  have hah : ahead h s' = (1 - f) * ahead h s := by
    unfold ahead
    rw [ht.x, ht.x0]
    simp only [proj, Pi.sub_apply, Pi.add_apply, Pi.smul_apply, smul_eq_mul]
    ring
  have hn := ht.normal
  have hnb := ht.next
  have hne := ht.inner
  have hk := ht.le
  have hpos := ht.pos
  rw [hah]
  rw [dot1] at hpos
  rcases k with _ | _ | k
  · right
    simp only [lineCell, List.getElem?_cons_zero, Option.some.injEq] at hn hnb
    subst hn
    have hneg : ahead h s < 0 := by
      simp only [ahead]
      simp only [Matrix.cons_val_zero] at hpos
      linarith
    refine ⟨hneg, ?_, mul_neg_of_pos_of_neg hf1 hneg⟩
    split at hnb <;> omega
  · left
    simp only [lineCell, Nat.zero_add, List.getElem?_cons_succ, List.getElem?_cons_zero,
      Option.some.injEq] at hn hnb
    subst hn
    have hp : 0 < ahead h s := by
      simp only [ahead]
      simp only [Matrix.cons_val_zero] at hpos
      linarith
    refine ⟨hp, ?_, mul_pos hf1 hp⟩
    split at hnb <;> omega
  · omega

/-- The number of crossings that do not end the search is less than the number of cells. -/
theorem line_crossN {x : Nat → K} {N : Nat} {marker : Int → Int} {h : 1 ≤ p} {v : Variant}
    (hM : (lineMesh x N marker).Conforming) (hv : v.datum = .ok ())
    {bc : Int → τ → BCall K 1 p ρ → Except Err (τ × Part K p ρ)}
    (hbc : GoodBC h (lineMesh x N marker) (v.sharesDx = true) bc) (ha : Absorbs (lineMesh x N marker) bc)
    {k : Nat} {s s' : Trk K p τ ρ} (hc : CrossN h (lineMesh x N marker) v bc k s s') {i : Nat}
    (hi : s.cell = i) (hs : Sound h (lineMesh x N marker) s) :
    (0 < ahead h s → i + k < N) ∧ (ahead h s < 0 → k ≤ i) ∧ (ahead h s = 0 → k = 0) ∧ i < N := by
  induction hc generalizing i with
  | zero s =>
    obtain ⟨c, hcell, -, -⟩ := hs.ex
    obtain ⟨j, hj, hjN, rfl⟩ := lineMesh_cell hcell
    refine ⟨fun _ => ?_, fun _ => ?_, fun _ => ?_, ?_⟩ <;> omega
  | @succ k s s1 s' out e r ih =>
    obtain ⟨c, hcell, -, -⟩ := hs.ex
    obtain ⟨j, hj, hjN, rfl⟩ := lineMesh_cell hcell
    obtain ⟨s2, brk, e2, hs2⟩ := cross_sound hM hv hbc hs out
    rw [e] at e2
    cases e2
    have hs1 := hs2 rfl
    obtain ⟨c1, hcell1, -, -⟩ := hs1.ex
    obtain ⟨j1, hj1, hj1N, rfl⟩ := lineMesh_cell hcell1
    have := ih hj1 hs1
    rcases line_cross hM hbc ha hi hs out (crossOnce_ok e) with ⟨a, b, c⟩ | ⟨a, b, c⟩
    · have := this.1 c
      refine ⟨fun _ => ?_, fun h0 => ?_, fun h0 => ?_, ?_⟩
      · omega
      · exact absurd h0 (not_lt.2 a.le)
      · exact absurd h0 a.ne'
      · omega
    · have := this.2.1 c
      refine ⟨fun h0 => ?_, fun h0 => ?_, fun h0 => ?_, ?_⟩
      · exact absurd h0 (not_lt.2 a.le)
      · omega
      · exact absurd h0 a.ne
      · omega

end Dt
