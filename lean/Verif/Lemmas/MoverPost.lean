import Verif.Lemmas.MoverUniform
import Verif.Lemmas.SAPReach

/-! # Consequences of a mover pass for the container -/

namespace Dt
namespace Mover
open SAP
variable {σ α : Type}

theorem setNumber_in {s : SAP α} (h : s.Inv) (n : Int) :
    (s.setNumberOfItems .Out n).inA = s.inA ∧ (s.setNumberOfItems .Out n).inSel = s.inSel ∧
      (s.setNumberOfItems .Out n).outSel = s.outSel ∧ (s.setNumberOfItems .Out n).sl = s.sl ∧
      (s.setNumberOfItems .Out n).outA.segs = s.outA.segs ∧
      (s.setNumberOfItems .Out n).outA.cur = s.outA.cur ∧
      (s.setNumberOfItems .Out n).outA.nseg = s.outA.nseg := by
  unfold setNumberOfItems
  dsimp only [sel]
  have := h.sel
  simp [inA, outA, this]

/-- The state after a pass. -/
structure Post (s s' : SAP α) (ys : List α) (lf : Option Bool) : Prop where
  sl : s'.sl = s.sl
  count : s'.getNumberOfItems = ys.length
  inv : ys ≠ [] → s'.Inv ∧ s'.contents = ys
  empty : ys = [] → s'.outA.fnf = -1 ∧ s'.outA.fao = s.sl ∧ s'.outA.cur = 0 ∧
    0 < s'.outA.segs.length ∧ Uniform s.sl s'.outA.segs ∧ s'.outA.nseg = s'.outA.segs.length
  inSel : s'.inSel = s.outSel
  outSel : s'.outSel = s.inSel
  inSegs : s'.inA.segs = s.outA.segs
  sync : ys ≠ [] → (s'.Synced ↔ ¬ (ys.length % s.sl = 0 ∧ lf = some false))
  full : ys ≠ [] → (s'.outA.fao = s.sl ↔ ys.length % s.sl = 0)
  last : lf ≠ none

theorem meshPass_post (adv : Adv σ α) {s : SAP α} (h : s.Inv) (hne : s.contents ≠ []) (st : σ) :
    match Spec.pass adv st 0 0 s.contents with
    | .error e => meshPass adv s st = .error e
    | .ok (st', ys) => ∃ s', meshPass adv s st = .ok (s', st') ∧
        Post s s' ys (Spec.lastFlag adv st 0 0 s.contents) := by
  have key := meshPass_ok adv h hne st
  cases hp : Spec.pass adv st 0 0 s.contents with
  | error e => rw [hp] at key; exact key
  | ok r =>
    obtain ⟨st', ys⟩ := r
    rw [hp] at key
    simp only [] at key ⊢
    obtain ⟨t, q, e, hi, hsl, hos, his, hcur, hfnf, hfao, hq1, hlt, hlf, hcap, htake, c, hin⟩ := key
    have hpos := hi.out.pos
    have hpos' : 0 < s.sl := by rw [← hsl]; exact hpos
    refine ⟨t.setNumberOfItems .Out ys.length, e, ?_⟩
    obtain ⟨g1, g2, g3, g4, g5, g6, g7⟩ := setNumber_in hi (ys.length : Int)
    have hlast : Spec.lastFlag adv st 0 0 s.contents ≠ none := fun hn => hne (lastFlag_none hp hn)
    have hcap' : ys.length ≤ t.outA.nseg * t.sl := by rw [hsl]; exact hcap
    have hset := fun (hys : ys ≠ []) => setNumberOfItems_ok hi ys.length
      (List.length_pos_iff.2 hys) hcap'
    refine ⟨by rw [g4, hsl], ?_, ?_, ?_, by rw [g2, his], by rw [g3, hos], by rw [g1, hin],
      ?_, ?_, hlast⟩
    · by_cases hys : ys = []
      · subst hys
        obtain ⟨h1, h2⟩ := setNumber_zero (s := t) hpos
        simp only [List.length_nil, Int.natCast_zero]
        unfold getNumberOfItems
        rw [h1, h2]; simp; omega
      · exact (hset hys).2.2.1
    · intro hys
      exact ⟨(hset hys).1, by rw [(hset hys).2.1, htake]⟩
    · intro hys
      subst hys
      obtain ⟨h1, h2⟩ := setNumber_zero (s := t) hpos
      simp only [List.length_nil, Int.natCast_zero] at g5 g6 g7 ⊢
      have hseg : 0 < t.outA.segs.length := by
        have := hi.out.fnf0; have := hi.out.fnfLt; have := hi.out.nseg; omega
      have hq0 : q = 0 := by
        simp only [List.length_nil, Nat.le_zero_eq, Nat.mul_eq_zero] at hq1
        omega
      refine ⟨by rw [h1], by rw [h1, hsl], by rw [g6, hcur, hq0]; rfl, by rw [g5]; exact hseg,
        by rw [g5, ← hsl]; exact hi.out.uni, by rw [g7, g5]; exact hi.out.nseg⟩
    · intro hys
      obtain ⟨_, _, _, k1, k2, k3, _⟩ := hset hys
      unfold Synced
      rw [k1, k2, hcur, hsl]
      have hL : 0 < ys.length := List.length_pos_iff.2 hys
      generalize hn : ys.length = n at *
      constructor
      · rintro hqe ⟨hm, hff⟩
        have h2 := hlf hff
        have hqe' : q = (n - 1) / s.sl := by exact_mod_cast hqe
        obtain ⟨d, hd⟩ := Nat.dvd_of_mod_eq_zero hm
        have hd0 : 0 < d := by
          rcases Nat.eq_zero_or_pos d with h0 | h0
          · subst h0; omega
          · exact h0
        have : (n - 1) / s.sl = d - 1 := by
          rw [Nat.div_eq_iff hpos', hd]
          obtain ⟨d', rfl⟩ : ∃ d', d = d' + 1 := ⟨d - 1, by omega⟩
          simp only [Nat.add_sub_cancel, Nat.mul_succ]
          rw [Nat.mul_comm]
          omega
        rw [hqe', this, show d - 1 + 1 = d by omega, Nat.mul_comm] at h2
        omega
      · intro hnot
        suffices h3 : q = (n - 1) / s.sl by exact_mod_cast h3
        symm
        rw [Nat.div_eq_iff hpos']
        cases hl : Spec.lastFlag adv st 0 0 s.contents with
        | none => exact absurd hl hlast
        | some b =>
          rw [hl] at hnot hlt hlf
          cases b with
          | true =>
            have := hlt rfl
            rw [Nat.succ_mul] at this
            omega
          | false =>
            have h4 := hlf rfl
            have h5 : n ≠ q * s.sl := by
              intro h6
              apply hnot
              exact ⟨by rw [h6]; exact Nat.mul_mod_left _ _, rfl⟩
            rw [Nat.succ_mul] at h4
            omega
    · intro hys
      obtain ⟨_, _, _, k1, k2, k3, _⟩ := hset hys
      rw [k3, hsl]
      have hL : 0 < ys.length := List.length_pos_iff.2 hys
      generalize ys.length = n at *
      have hd := Nat.div_add_mod (n - 1) s.sl
      have hml := Nat.mod_lt (n - 1) hpos'
      generalize (n - 1) / s.sl = u at *
      generalize (n - 1) % s.sl = v at *
      rw [show n = s.sl * u + (v + 1) by omega, Nat.mul_add_mod]
      constructor
      · intro h1
        have : v + 1 = s.sl := by omega
        rw [this, Nat.mod_self]
      · intro h1
        by_cases h2 : v + 1 < s.sl
        · rw [Nat.mod_eq_of_lt h2] at h1; omega
        · omega

/-- A species all of whose particles were deleted. -/
theorem ghost_pushBack {s : SAP α} (hf : s.outA.fnf = -1) (ho : s.outA.fao = s.sl)
    (hc : s.outA.cur = 0) (x : α) :
    s.pushBack x = .error .assertion := by
  apply pushBack_err x ho
  unfold Synced
  omega

end Mover
end Dt
