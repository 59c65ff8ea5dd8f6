import Verif.Model.LineMesh
import Verif.Lemmas.TrackSafe

namespace Dt
variable {K : Type} [Field K] [LinearOrder K] [IsStrictOrderedRing K]

omit [LinearOrder K] [IsStrictOrderedRing K] in
theorem dot1 (a b : Vec K 1) : dot a b = a 0 * b 0 := by simp [dot]

omit [IsStrictOrderedRing K] in
theorem lineCell_has {x : Nat → K} {N i : Nat} [IsStrictOrderedRing K] (q : Vec K 1) :
    (lineCell x N i).Has q ↔ x i ≤ q 0 ∧ q 0 ≤ x (i + 1) := by
  constructor
  · intro h
    have h0 := h 0 (by omega) _ _ 0 rfl rfl (by simp [onFacet])
    have h1 := h 1 (by omega) _ _ 1 rfl rfl (by simp [onFacet])
    rw [dot1] at h0 h1
    simp only [Pi.sub_apply, Matrix.cons_val_zero] at h0 h1
    constructor <;> linarith
  · rintro ⟨h0, h1⟩ k hk n v j hn hv hj
    simp only [onFacet, if_true] at hj
    subst hj
    rw [dot1]
    rcases j with _ | _ | j
    · simp only [lineCell, List.getElem?_cons_zero, Option.some.injEq] at hn hv
      subst hn hv
      simp only [Pi.sub_apply, Matrix.cons_val_zero]; linarith
    · simp only [lineCell, Nat.zero_add, List.getElem?_cons_succ, List.getElem?_cons_zero, Option.some.injEq] at hn hv
      subst hn hv
      simp only [Pi.sub_apply, Matrix.cons_val_zero]; linarith
    · omega

theorem lineCell_regular {x : Nat → K} {N i : Nat} (hx : x i < x (i + 1)) :
    (lineCell x N i).Regular := by
  refine ⟨by omega, rfl, rfl, rfl, rfl, ?_, ?_⟩
  · intro k a b n va vb hn hva hvb ha hb
    simp only [onFacet, if_true] at ha hb
    subst ha hb
    rw [hva] at hvb
    cases hvb
    rw [sub_self]
    simp [dot1]
  · intro k a b n va vb hn hva hvb ha hb
    simp only [onFacet, if_true] at ha hb
    subst ha
    rw [dot1]
    rcases a with _ | _ | a
    · rcases b with _ | _ | b
      · exact absurd rfl hb
      · simp only [lineCell, Nat.zero_add, List.getElem?_cons_succ, List.getElem?_cons_zero, Option.some.injEq] at hn hva hvb
        subst hn hva hvb
        simp only [Pi.sub_apply, Matrix.cons_val_zero]; linarith
      · simp [lineCell] at hvb
    · rcases b with _ | _ | b
      · simp only [lineCell, Nat.zero_add, List.getElem?_cons_succ, List.getElem?_cons_zero, Option.some.injEq] at hn hva hvb
        subst hn hva hvb
        simp only [Pi.sub_apply, Matrix.cons_val_zero]; linarith
      · exact absurd rfl hb
      · simp [lineCell] at hvb
    · simp [lineCell] at hva

omit [LinearOrder K] [IsStrictOrderedRing K] in
theorem lineMesh_cell {x : Nat → K} {N : Nat} {marker : Int → Int} {ci : Int} {c : Cell K 1}
    (h : (lineMesh x N marker).cell ci = some c) :
    ∃ i : Nat, ci = i ∧ i < N ∧ c = lineCell x N i := by
  simp only [lineMesh] at h
  split at h
  · rename_i hc
    refine ⟨ci.toNat, by omega, by omega, ?_⟩
    cases h; rfl
  · cases h

omit [LinearOrder K] [IsStrictOrderedRing K] in
theorem lineMesh_cell' {x : Nat → K} {N : Nat} {marker : Int → Int} {i : Nat} (h : i < N) :
    (lineMesh x N marker).cell (i : Int) = some (lineCell x N i) := by
  simp only [lineMesh]
  rw [if_pos (by omega)]
  simp

/-- The one-dimensional mesh is conforming if its vertices increase and its end points are
marked. -/
theorem lineMesh_conforming {x : Nat → K} {N : Nat} {marker : Int → Int}
    (hx : ∀ i, i < N → x i < x (i + 1)) (h0 : marker 0 ≠ 0) (hN : marker N ≠ 0) :
    (lineMesh x N marker).Conforming := by
  constructor
  · intro ci c h
    obtain ⟨i, rfl, hi, rfl⟩ := lineMesh_cell h
    exact lineCell_regular (hx i hi)
  · intro ci c h
    obtain ⟨i, rfl, hi, rfl⟩ := lineMesh_cell h
    simp [lineCell]
  · intro ci c F h hF
    obtain ⟨i, rfl, hi, rfl⟩ := lineMesh_cell h
    simp [lineCell] at hF
    omega
  · intro ci c k cj h hk hcj
    obtain ⟨i, rfl, hi, rfl⟩ := lineMesh_cell h
    rcases k with _ | _ | k
    · simp only [lineCell, List.getElem?_cons_zero, Option.some.injEq] at hk
      split at hk
      · exact absurd hk.symm hcj
      · obtain ⟨m, rfl⟩ := Nat.exists_eq_succ_of_ne_zero ‹i ≠ 0›
        have : cj = (m : Int) := by omega
        subst this
        refine ⟨lineCell x N m, 1, lineMesh_cell' (by omega), ?_, ?_, ?_⟩
        · simp [lineCell]
        · intro n n' hn hn'
          simp only [lineCell, List.getElem?_cons_zero, List.getElem?_cons_succ,
            Option.some.injEq] at hn hn'
          refine ⟨1, one_pos, ?_⟩
          subst hn hn'
          funext j
          rw [Subsingleton.elim j 0]
          simp
        · intro q hq hp
          rw [lineCell_has] at hq ⊢
          have := hp _ _ 0 rfl rfl (by simp [onFacet])
          rw [dot1] at this
          simp only [Pi.sub_apply, Matrix.cons_val_zero] at this
          have h2 := hx m (by omega)
          constructor <;> simp only [Nat.succ_eq_add_one] at * <;> linarith
    · simp only [lineCell, Nat.zero_add, List.getElem?_cons_succ, List.getElem?_cons_zero,
        Option.some.injEq] at hk
      split at hk
      · exact absurd hk.symm hcj
      · subst hk
        refine ⟨lineCell x N (i + 1), 0, lineMesh_cell' (i := i + 1) (by omega), ?_, ?_, ?_⟩
        · simp [lineCell]
        · intro n n' hn hn'
          simp only [lineCell, Nat.zero_add, List.getElem?_cons_zero, List.getElem?_cons_succ,
            Option.some.injEq] at hn hn'
          refine ⟨1, one_pos, ?_⟩
          subst hn hn'
          funext j
          rw [Subsingleton.elim j 0]
          simp
        · intro q hq hp
          rw [lineCell_has] at hq ⊢
          have := hp _ _ 1 rfl rfl (by simp [onFacet])
          rw [dot1] at this
          simp only [Pi.sub_apply, Matrix.cons_val_zero] at this
          have h2 := hx (i + 1) (by omega)
          constructor <;> linarith
    · simp [lineCell] at hk
  · intro ci c k F h hk hF
    obtain ⟨i, rfl, hi, rfl⟩ := lineMesh_cell h
    rcases k with _ | _ | k
    · simp only [lineCell, List.getElem?_cons_zero, Option.some.injEq] at hk hF
      split at hk
      · subst hF
        rename_i h0'
        rw [h0']; exact h0
      · omega
    · simp only [lineCell, Nat.zero_add, List.getElem?_cons_succ, List.getElem?_cons_zero,
        Option.some.injEq] at hk hF
      split at hk
      · subst hF
        rename_i hN'
        have : ((i : Int) + 1) = (N : Int) := by omega
        simp only [lineMesh]
        rw [this]; exact hN
      · omega
    · simp [lineCell] at hk

end Dt
