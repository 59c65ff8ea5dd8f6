import Verif.Spec.Topology
import Verif.Lemmas.SAP

/-! # Lemmas about the neighbour tables -/

set_option linter.unusedSectionVars false

namespace Dt
namespace Topology
open Spec (HasFacet Manifold IsNeighbor IsTable)

theorem fillRow_ok (value : Int → Except Err Int) (fs vs : List Int) (pre : List Int) (junk : Int)
    (h : List.Forall₂ (fun f v => value f = .ok v) fs vs) :
    fillRow value fs pre.length (pre ++ List.replicate fs.length junk) = .ok (pre ++ vs) := by
  induction h generalizing pre with
  | nil => simp [fillRow]
  | @cons f v fs vs hd htl ih =>
    simp only [fillRow, hd, bind, Except.bind]
    rw [pySet_of_lt _ (by simp)]
    simp only
    have : (pre ++ List.replicate (f :: fs).length junk).set pre.length v =
        (pre ++ [v]) ++ List.replicate fs.length junk := by
      rw [List.set_append_right _ _ (by omega), Nat.sub_self, List.length_cons,
        List.replicate_succ, List.set_cons_zero]
      simp
    rw [this]
    have := ih (pre ++ [v])
    simp only [List.length_append, List.length_singleton] at this
    rw [this]; simp

theorem table_ok {T : Topo} {n : Nat} (value : Int → Int → Except Err Int) (junk : Int)
    (cells : List (Int × List Int)) (hn : ∀ c ∈ cells, c.2.length = n)
    (hv : ∀ c ∈ cells, ∀ f ∈ c.2, ∃ v, value c.1 f = .ok v ∧ IsNeighbor T c.1 f v) :
    ∃ tab, table value n junk cells = .ok tab ∧
      List.Forall₂ (fun c r => r.1 = c.1 ∧ List.Forall₂ (IsNeighbor T c.1) c.2 r.2) cells tab := by
  induction cells with
  | nil => exact ⟨[], rfl, .nil⟩
  | cons c cells ih =>
    obtain ⟨tab, e, h⟩ := ih (fun c hc => hn c (List.mem_cons_of_mem _ hc))
      (fun c hc => hv c (List.mem_cons_of_mem _ hc))
    obtain ⟨ci, fs⟩ := c
    have hrow : ∃ vs, List.Forall₂ (fun f v => value ci f = .ok v) fs vs ∧
        List.Forall₂ (IsNeighbor T ci) fs vs := by
      have hv' := hv (ci, fs) (by simp)
      dsimp only at hv'
      clear hn hv e h
      induction fs with
      | nil => exact ⟨[], .nil, .nil⟩
      | cons f fs ihf =>
        obtain ⟨v, h1, h2⟩ := hv' f (by simp)
        obtain ⟨vs, h3, h4⟩ := ihf (fun f hf => hv' f (List.mem_cons_of_mem _ hf))
        exact ⟨v :: vs, .cons h1 h3, .cons h2 h4⟩
    obtain ⟨vs, h1, h2⟩ := hrow
    have hl : fs.length = n := hn (ci, fs) (by simp)
    have e1 := fillRow_ok (value ci) fs vs [] junk h1
    simp only [List.nil_append, List.length_nil, hl] at e1
    refine ⟨(ci, vs) :: tab, ?_, .cons ⟨rfl, h2⟩ h⟩
    simp only [table, e1, e, bind, Except.bind, pure, Except.pure]

/-- The attached cells of a facet of `c`: `c` alone, or `c` and one other. -/
theorem attached_cases {T : Topo} {n : Nat} (hT : Manifold T n) {c f : Int} (h : HasFacet T c f) :
    T.attached f = [c] ∨ ∃ d, d ≠ c ∧ (T.attached f = [c, d] ∨ T.attached f = [d, c]) := by
  have hm := (hT.attached c f).2 h
  have h2 := hT.two f
  have hn := hT.once f
  match ha : T.attached f with
  | [] => rw [ha] at hm; simp at hm
  | [a] => rw [ha] at hm; left; simp at hm; rw [hm]
  | [a, b] =>
    rw [ha] at hm hn
    right
    simp only [List.mem_cons, List.not_mem_nil, or_false] at hm
    simp only [List.nodup_cons, List.mem_cons, List.not_mem_nil, or_false] at hn
    rcases hm with rfl | rfl
    · exact ⟨b, fun hc => hn.1 hc.symm, .inl rfl⟩
    · exact ⟨a, hn.1, .inr rfl⟩
  | a :: b :: c' :: l => rw [ha] at h2; simp at h2

theorem isNeighbor_of {T : Topo} {n : Nat} (hT : Manifold T n) {c f : Int} (h : HasFacet T c f) :
    ∃ v, pyNeighbor T c f = .ok v ∧ cppNeighbor T c f = .ok v ∧ IsNeighbor T c f v := by
  rcases attached_cases hT h with ha | ⟨d, hd, ha | ha⟩
  · refine ⟨-1, ?_, ?_, .inl ⟨rfl, ?_⟩⟩
    · simp [pyNeighbor, ha]
    · simp [cppNeighbor, ha]
    · intro d hd
      have := (hT.attached d f).2 hd
      rw [ha] at this; simpa using this
  · refine ⟨d, ?_, ?_, .inr ⟨hd, (hT.attached d f).1 (by rw [ha]; simp)⟩⟩
    · simp [pyNeighbor, ha, hd, pyGet, orIndexErr]
    · simp [cppNeighbor, ha, pyGet, orIndexErr, bind, Except.bind]
  · refine ⟨d, ?_, ?_, .inr ⟨hd, (hT.attached d f).1 (by rw [ha]; simp)⟩⟩
    · simp [pyNeighbor, ha, hd, pyGet, orIndexErr]
    · simp [cppNeighbor, ha, hd, pyGet, orIndexErr, bind, Except.bind]

theorem table_congr (value value' : Int → Int → Except Err Int) (n : Nat) (junk : Int)
    (cells : List (Int × List Int)) (h : ∀ c ∈ cells, ∀ f ∈ c.2, value c.1 f = value' c.1 f) :
    table value n junk cells = table value' n junk cells := by
  induction cells with
  | nil => rfl
  | cons c cells ih =>
    obtain ⟨ci, fs⟩ := c
    simp only [table]
    rw [ih (fun c hc => h c (List.mem_cons_of_mem _ hc))]
    have hrow : ∀ (fi : Nat) (row : List Int),
        fillRow (value ci) fs fi row = fillRow (value' ci) fs fi row := by
      have h' := h (ci, fs) (by simp)
      dsimp only at h'
      clear h ih
      induction fs with
      | nil => intros; rfl
      | cons f fs ihf =>
        intro fi row
        simp only [fillRow, h' f (by simp)]
        congr 1
        funext v
        congr 1
        funext row'
        exact ihf (fun f hf => h' f (List.mem_cons_of_mem _ hf)) _ _
    rw [hrow]

end Topology
end Dt
