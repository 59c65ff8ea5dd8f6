import Verif.Lemmas.Mover

/-! # The uniform-field mover -/

namespace Dt
namespace Mover
open SAP
variable {α : Type _}

/-- Specification of what the uniform-field mover writes. -/
theorem uniformOne_ok {dead : α → Bool} {adv : α → α} {sl : Nat} {o : Bool} {a : SA α} {c : Nat}
    {ps : Pass Unit α} {ys : List α} (h : PInv sl o a c ps ys) (ha : a.WF sl) (ip : Nat)
    (hip : ip < sl) (hx : c * sl + ip < (a.items sl).length)
    (ht : ps.ipOut = 0 → ys = []) :
    ∃ ps', uniformOne dead adv ⟨!o, (c : Int)⟩ ip ps = .ok ps' ∧
      (let zs := if dead ((a.items sl)[c * sl + ip]) then ys else ys ++ [adv ((a.items sl)[c * sl + ip])]
       PInv sl o a c ps' zs ∧ (ps'.ipOut = 0 → zs = [])) := by
  unfold uniformOne
  rw [read_ok h ha ip hip hx]
  simp only [bind, Except.bind]
  by_cases hd : dead ((a.items sl)[c * sl + ip]) = true
  · rw [if_pos hd]
    exact ⟨ps, rfl, by simpa [hd] using ⟨h, ht⟩⟩
  · rw [if_neg hd]
    obtain ⟨ps1, e1, h1, hlt, hst, hic1⟩ := nextOut_ok h
    obtain ⟨s', e2, hk, _⟩ := write_ok h1 hlt (adv ((a.items sl)[c * sl + ip])) ps1.st
    refine ⟨countFull { ps1 with s := s', ipOut := ps1.ipOut + 1 }, ?_, ?_⟩
    · rw [e1]
      simp only [e2]
      rfl
    · simp only [hd]
      refine ⟨hk, ?_⟩
      unfold countFull
      intro h3
      split at h3 <;> simp at h3

theorem uniformItems_ok {dead : α → Bool} {adv : α → α} {sl : Nat} {o : Bool} {a : SA α} {c : Nat}
    (ha : a.WF sl) (k : Nat) : ∀ (ip : Nat) (ps : Pass Unit α) (ys : List α), PInv sl o a c ps ys →
    (ps.ipOut = 0 → ys = []) → ip + k ≤ sl → c * sl + ip + k ≤ (a.items sl).length →
    ∃ ps', uniformItems dead adv ⟨!o, (c : Int)⟩ k ip ps = .ok ps' ∧
      (let zs := ys ++ (((((a.items sl).drop (c * sl + ip)).take k).filter (fun p => !dead p)).map adv)
       PInv sl o a c ps' zs ∧ (ps'.ipOut = 0 → zs = [])) := by
  induction k with
  | zero =>
    intro ip ps ys h ht _ _
    exact ⟨ps, rfl, by simpa using ⟨h, ht⟩⟩
  | succ k ih =>
    intro ip ps ys h ht hip hx
    have hx1 : c * sl + ip < (a.items sl).length := by omega
    obtain ⟨ps1, e1, h1, h2⟩ := uniformOne_ok (dead := dead) (adv := adv) h ha ip (by omega) hx1 ht
    obtain ⟨ps2, e2, h3, h4⟩ := ih (ip + 1) ps1 _ h1 h2 (by omega) (by omega)
    refine ⟨ps2, ?_, ?_⟩
    · unfold uniformItems
      rw [e1]
      exact e2
    · rw [List.drop_eq_getElem_cons hx1, List.take_succ_cons]
      rw [show c * sl + (ip + 1) = c * sl + ip + 1 by omega] at h3 h4
      by_cases hd : dead ((a.items sl)[c * sl + ip]) = true
      · simp only [hd, if_true] at h3 h4
        simp only [List.filter_cons, hd, Bool.not_true, Bool.false_eq_true, if_false]
        exact ⟨h3, h4⟩
      · simp only [hd] at h3 h4
        simp only [List.filter_cons, hd, Bool.not_false, if_true, List.map_cons]
        simp only [List.append_assoc, List.singleton_append, Bool.false_eq_true, if_false] at h3 h4
        exact ⟨h3, h4⟩

theorem uniformSegs_ok {dead : α → Bool} {adv : α → α} {sl : Nat} {o : Bool} {a : SA α}
    (ha : a.WF sl) (k : Nat) :
    ∀ (c fuel : Nat) (ps : Pass Unit α) (ys : List α), PInv sl o a c ps ys →
    (ps.ipOut = 0 → ys = []) →
    (c : Int) + k = a.fnf → k < fuel → (a.fnf = (c : Int) → a.fao ≠ 0) →
    ∃ ps' c', uniformSegs dead adv fuel (if a.fnf = (c : Int) then a.fao else sl)
        (some ⟨!o, (c : Int)⟩) ps = .ok ps' ∧
      (let zs := ys ++ (((a.items sl).drop (c * sl)).filter (fun p => !dead p)).map adv
       PInv sl o a c' ps' zs ∧ (ps'.ipOut = 0 → zs = [])) := by
  obtain ⟨f, o', hf, ho', hfl, hol, hfl2, hle⟩ := ha.total
  have hlen : (a.items sl).length = f * sl + o' := by
    have := ha.items_length
    rw [hf, ho'] at this
    exact_mod_cast this
  induction k with
  | zero =>
    intro c fuel ps ys h ht hc hfuel hne
    have hcf : c = f := by omega
    subst hcf
    obtain ⟨fuel, rfl⟩ : ∃ m, fuel = m + 1 := ⟨fuel - 1, by omega⟩
    rw [if_pos hf]
    obtain ⟨ps1, e1, h1, h2⟩ := uniformItems_ok (dead := dead) (adv := adv) ha o' 0 ps ys h ht
      (by omega) (by omega)
    rw [Nat.add_zero] at h1 h2
    rw [List.take_of_length_le (by rw [List.length_drop]; omega)] at h1 h2
    obtain ⟨s', hn, h8⟩ := nextIn_eq h1
    refine ⟨{ ps1 with s := s' }, c + 1, ?_, h8, h2⟩
    unfold uniformSegs
    rw [ho']
    simp only [Int.toNat_natCast]
    rw [e1]
    simp only [bind, Except.bind]
    rw [hn, if_pos (by omega)]
    simp only [uniformSegs]
  | succ k ih =>
    intro c fuel ps ys h ht hc hfuel hne
    obtain ⟨fuel, rfl⟩ : ∃ m, fuel = m + 1 := ⟨fuel - 1, by omega⟩
    have hcf : c + 1 ≤ f := by omega
    rw [if_neg (by omega)]
    have hmul : (c + 1) * sl ≤ f * sl := Nat.mul_le_mul_right _ hcf
    rw [Nat.succ_mul] at hmul
    obtain ⟨ps1, e1, h1, h2⟩ := uniformItems_ok (dead := dead) (adv := adv) ha sl 0 ps ys h ht
      (by omega) (by omega)
    rw [Nat.add_zero] at h1 h2
    obtain ⟨s', hn, h8⟩ := nextIn_eq h1
    have hsplit : (a.items sl).drop (c * sl) =
        ((a.items sl).drop (c * sl)).take sl ++ (a.items sl).drop ((c + 1) * sl) := by
      rw [Nat.succ_mul, ← List.drop_drop, List.take_append_drop]
    rw [hsplit, List.filter_append, List.map_append, ← List.append_assoc]
    unfold uniformSegs
    simp only [Int.toNat_natCast]
    rw [e1]
    simp only [bind, Except.bind]
    rw [hn, if_neg (by omega)]
    by_cases hlast : a.fnf = (c : Int) + 1 ∧ a.fao = 0
    · rw [if_pos hlast.1, if_pos hlast.2]
      have hempty : (a.items sl).drop ((c + 1) * sl) = [] := by
        apply List.drop_eq_nil_of_le
        rw [hlen]
        have : f = c + 1 := by omega
        rw [this]
        omega
      rw [hempty]
      refine ⟨{ ps1 with s := s' }, c + 1, ?_, ?_, ?_⟩
      · simp only [uniformSegs]
      · simpa using h8
      · simpa using h2
    · have harg : (if a.fnf = (c : Int) + 1 then
          if a.fao = 0 then ((0 : Int), (none : Option View)) else (a.fao, some ⟨!o, (c : Int) + 1⟩)
          else ((sl : Int), some ⟨!o, (c : Int) + 1⟩)) =
          ((if a.fnf = ((c + 1 : Nat) : Int) then a.fao else (sl : Int)),
            some ⟨!o, ((c + 1 : Nat) : Int)⟩) := by
        by_cases h9 : a.fnf = (c : Int) + 1
        · rw [if_pos h9, if_neg (fun h10 => hlast ⟨h9, h10⟩), if_pos (by push_cast; exact h9)]
          rfl
        · rw [if_neg h9, if_neg (by push_cast; exact h9)]
          rfl
      rw [harg]
      simp only []
      exact ih (c + 1) fuel { ps1 with s := s' } _ h8 h2 (by push_cast; omega) (by omega)
        (fun h10 h11 => hlast ⟨by rw [h10]; push_cast; rfl, h11⟩)

/-- The whole uniform-field pass: what is in the storage, and the number that
is declared. -/
theorem uniformPass_ok (dead : α → Bool) (adv : α → α) {s : SAP α} (h : s.Inv)
    (hne : s.contents ≠ []) :
    let ys := (s.contents.filter (fun p => !dead p)).map adv
    ∃ (t : SAP α) (q : Nat), uniformPass dead adv s = .ok (t.setNumberOfItems .Out
        ((ys.length + (if ys ≠ [] ∧ ys.length % s.sl = 0 then s.sl else 0) : Nat) : Int)) ∧
      t.Inv ∧ t.sl = s.sl ∧ t.outSel = s.inSel ∧ t.inSel = s.outSel ∧
      t.outA.cur = q ∧ t.outA.fnf = q ∧ q = (ys.length - 1) / s.sl ∧
      ys.length ≤ t.outA.nseg * s.sl ∧
      t.outA.segs.flatten.take ys.length = ys := by
  intro ys
  obtain ⟨s1, e, h1, h2, h3, h4, h5, h6, h7⟩ := initInoutLoop_nonempty h hne
  have hpos := h.out.pos
  have hsel1 : (!s1.outSel) = s1.inSel := h7.sel.symm
  have hp : PInv s.sl s1.outSel s.outA 0
      (⟨s1, ⟨s1.outSel, 0⟩, 0, 0, false, ()⟩ : Pass Unit α) [] := by
    refine ⟨h7, by simp [Synced, h6], h3, rfl, by simp only []; rw [h5]; rfl, by simp [h6], by simp [h6], by simp,
      by simp [h6], by simp, ?_⟩
    rw [if_neg (by simp only []; omega)]
    rfl
  obtain ⟨f, o', hf, ho', hfl, hol, hfl2, hle⟩ := h.out.total
  have hfao : s.outA.fnf = ((0 : Nat) : Int) → s.outA.fao ≠ 0 := by
    intro h8 h9
    exact hne ((contents_nil_iff h.out).2 ⟨by simpa using h8, h9⟩)
  obtain ⟨ps', c', h8, h9, h10⟩ := uniformSegs_ok (dead := dead) (adv := adv) h.out f 0
    (s.outA.nseg + 1) _ [] hp (by simp) (by rw [hf]; simp) (by rw [h.out.nseg]; omega) hfao
  simp only [Nat.zero_mul, List.drop_zero, List.nil_append] at h8 h9 h10
  have hys : ((s.outA.items s.sl).filter (fun p => !dead p)).map adv = ys := rfl
  rw [hys] at h9 h10
  have hstart : (if s.outA.fnf = ((0 : Nat) : Int) then s.outA.fao else (s.sl : Int)) =
      firstCount s.sl s.outA := rfl
  rw [hstart, hsel1, show ((0 : Nat) : Int) = 0 from rfl] at h8
  obtain ⟨hi, hs, hsl, ho, hin, hfao', hv, hip, hlen, hwr, hcnt⟩ := h9
  obtain ⟨g, o'', hg, ho'', hgl, _, hgl2, hgle⟩ := hi.out.total
  have hL : ys.length = g * s.sl + ps'.ipOut := by
    rw [hg] at hlen; exact_mod_cast hlen
  have hmul : (g + 1) * s.sl ≤ ps'.s.outA.segs.length * s.sl := Nat.mul_le_mul_right _ hgl
  rw [Nat.succ_mul] at hmul
  have hip0 : ps'.ipOut = 0 → g = 0 := by
    intro h0
    have := h10 h0
    rw [this, h0] at hL
    simp only [List.length_nil, Nat.add_zero] at hL
    rcases Nat.mul_eq_zero.1 hL.symm with h | h
    · exact h
    · omega
  have hmod : (ys ≠ [] ∧ ys.length % s.sl = 0) ↔ ps'.ipOut = s.sl := by
    rw [← List.length_pos_iff, hL]
    have hm : (g * s.sl + ps'.ipOut) % s.sl = ps'.ipOut % s.sl := by
      rw [Nat.mul_comm, Nat.mul_add_mod]
    rw [hm]
    constructor
    · rintro ⟨ha, hb⟩
      by_cases hlt : ps'.ipOut < s.sl
      · rw [Nat.mod_eq_of_lt hlt] at hb
        have := hip0 hb
        subst this
        rw [hb] at ha
        simp at ha
      · omega
    · intro hc
      rw [hc]
      simp
      omega
  refine ⟨ps'.s, g, ?_, hi, hsl, by rw [ho, h2], by rw [hi.sel, ho, h2, h.sel]; simp, ?_, hg, ?_, ?_,
    hwr⟩
  · unfold uniformPass
    rw [e]
    simp only []
    rw [h8]
    simp only [bind, Except.bind, pure, Except.pure]
    congr 3
    by_cases h11 : ps'.ipOut = s.sl
    · rw [hcnt, if_pos h11, if_pos (hmod.2 h11), h11]
    · rw [hcnt, if_neg h11, if_neg (fun hc => h11 (hmod.1 hc))]
      omega
  · have := hs; unfold Synced at this; rw [this, hg]
  · symm
    by_cases h0 : ps'.ipOut = 0
    · have := hip0 h0
      subst this
      rw [hL, h0]
      simp
    · rw [Nat.div_eq_iff hpos, hL]
      omega
  · rw [hi.out.nseg]
    omega

end Mover
end Dt
