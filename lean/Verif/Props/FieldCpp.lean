import Verif.Model.FieldCpp
import Verif.Props.Field
import Verif.Lemmas.Species

/-!
# Number densities with compiled functions (C119)
-/

namespace Dt
open Fld Spec
set_option linter.unusedSectionVars false
variable {K α : Type} [Field K]

theorem weigh_fold (pdim : Nat) (st : Option (List K) × Option (List K)) (ps : List (List α)) :
    ps.foldlM (fun st _ => weighSegmentCPP pdim st) st =
      if ps ≠ [] ∧ (st.1.isSome ∨ st.2.isSome) ∧ (pdim = 3 ∨ pdim = 2 ∨ pdim = 1) then .error .name else .ok st := by
  induction ps with
  | nil => rfl
  | cons p ps ih =>
    rw [List.foldlM_cons]
    by_cases h : (st.1.isSome ∨ st.2.isSome) ∧ (pdim = 3 ∨ pdim = 2 ∨ pdim = 1)
    · rw [if_pos ⟨by simp, h⟩]
      have : weighSegmentCPP pdim st = .error .name := by
        unfold weighSegmentCPP
        split
        · rfl
        · rw [if_pos]
          rename_i h1
          exact ⟨h.1.resolve_left (fun a => h1 ⟨a, h.2⟩), h.2⟩
      rw [this]; rfl
    · rw [if_neg (fun a => h a.2)]
      have : weighSegmentCPP pdim st = .ok st := by
        unfold weighSegmentCPP
        rw [if_neg (fun a => h ⟨.inl a.1, a.2⟩), if_neg (fun a => h ⟨.inr a.1, a.2⟩)]
      rw [this]
      show List.foldlM _ st ps = _
      rw [ih, if_neg (fun a => h a.2)]

/-- C119 (what it does).  For every container and every pair of fields: a NameError, if a cell field is given,
or if a DOF field is given, there are particles, and the particles have 1, 2 or 3 coordinates.  In all other
cases nothing happens, and the particles are still there. -/
theorem C119_exact (pdim : Nat) {s : SAP α} (hr : SAP.Reachable s) {xs : List α} (hx : Stores s xs)
    (dofF cellF : Option (List K)) :
    (cellF.isSome = true ∨ (dofF.isSome = true ∧ xs ≠ [] ∧ (pdim = 3 ∨ pdim = 2 ∨ pdim = 1)) →
      accumulateCPP pdim s dofF cellF = .error .name) ∧
    (cellF = none → dofF = none ∨ xs = [] ∨ ¬ (pdim = 3 ∨ pdim = 2 ∨ pdim = 1) →
      ∃ s', accumulateCPP pdim s dofF cellF = .ok (s', (dofF, cellF)) ∧ Stores s' xs) := by
  obtain ⟨c, e⟩ := SAP.outLoop_read_stores hr hx (fun st _ => weighSegmentCPP (K := K) pdim st) (dofF, cellF)
  have hpos := (SAP.reachable_inv hr).out.pos
  have hch : Spec.chunk s.sl xs ≠ [] ↔ xs ≠ [] := by
    constructor
    · rintro h rfl; exact h rfl
    · intro h h'
      have := Spec.chunk_flatten hpos (xs := xs)
      rw [h'] at this
      exact h this.symm
  unfold accumulateCPP
  rw [e, weigh_fold]
  constructor
  · intro h
    rcases h with h | ⟨h1, h2, h3⟩
    · by_cases hc : Spec.chunk s.sl xs ≠ [] ∧ ((dofF, cellF).1.isSome = true ∨ (dofF, cellF).2.isSome = true) ∧
        (pdim = 3 ∨ pdim = 2 ∨ pdim = 1)
      · rw [if_pos hc]; rfl
      · rw [if_neg hc]
        simp only [Except.map, bind, Except.bind]
        rw [if_pos h]
    · rw [if_pos ⟨hch.2 h2, .inl h1, h3⟩]; rfl
  · rintro rfl h
    rw [if_neg (by
      rintro ⟨h1, h2, h3⟩
      simp only [Option.isSome_none, Bool.false_eq_true, or_false] at h2
      rcases h with h | h | h
      · rw [h] at h2; cases h2
      · exact hch.1 h1 h
      · exact h h3)]
    exact ⟨_, rfl, Species.stores_withCur hr hx _⟩

/-- C119, the part that holds.  If no field is given, the compiled and the Python function do the same:
nothing.  Missing: all calls that ask for something. -/
theorem C119_nothing_asked_partial (pdim : Nat) (A : Attrs K α) (SD SC : Space K α) (vol : Nat → K) (ncell : Nat)
    {s : SAP α} (hr : SAP.Reachable s) {xs : List α} (hx : Stores s xs) :
    ∃ s1 s2, accumulateCPP (K := K) pdim s none none = .ok (s1, (none, none)) ∧
      accumulate A SD SC vol ncell s none none = .ok (s2, (none, none)) ∧ Stores s1 xs ∧ Stores s2 xs := by
  obtain ⟨s1, e1, h1⟩ := (C119_exact (K := K) pdim hr hx none none).2 rfl (.inl rfl)
  obtain ⟨c, e2⟩ := accumulate_ok (A := A) (SD := SD) (SC := SC) hr hx vol ncell none none (by simp) (by simp) (by simp)
  exact ⟨s1, _, e1, e2, h1, Species.stores_withCur hr hx _⟩

-- The demo population of C33 meets the hypotheses.
example : accumulateCPP 1 demoStore (some [(0 : ℚ), 0, 0]) none = .error .name :=
  (C119_exact 1 demoStore_reachable demoStore_stores (some [0, 0, 0]) none).1 (.inr ⟨rfl, by simp [demoPop], .inr (.inr rfl)⟩)

/-- C119 is false: where the Python function distributes the weights of the particles, the one meant to do the same with
compiled functions raises a NameError. -/
theorem C119_false_name :
    (accumulate demoAttrs demoCG demoDG (fun _ => 1) 2 demoStore (some [0, 0, 0]) none).map (fun r => r.2.1) =
      .ok (some [9/2, 2, 11/2]) ∧
    (accumulateCPP 1 demoStore (some [(0 : ℚ), 0, 0]) none).map (fun r => r.2.1) = .error .name := by decide +kernel

end Dt
