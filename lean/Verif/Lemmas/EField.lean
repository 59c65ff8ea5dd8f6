import Verif.Model.EField
import Verif.Spec.EField
import Verif.Lemmas.MoverReach
import Mathlib.Tactic.Abel

/-! # Preparing fields per segment is the same as computing them per particle -/

set_option linter.unusedSectionVars false

namespace Dt
namespace Mover
open SAP
variable {σ ρ φ α γ : Type}

/-- The per-particle code that finds its field in a list, by the storage index of the particle. -/
def advI (all : List φ) (adv : φ → Adv σ α) : Adv σ α :=
  fun st iIn iOut ch p => do
    let f ← pyGet all iIn
    adv f st iIn iOut ch p

/-- The "in" array is number `i`, it is `a` with current segment `c`; the pass writes to the
other one. -/
structure Sep (L : Nat) (i : Bool) (a : SA α) (c : Int) (ps : Pass σ α) : Prop where
  vout : ps.vout.arr = !i
  outS : ps.s.outSel = !i
  inS : ps.s.inSel = i
  arr : ps.s.arr i = { a with cur := c }
  sl : ps.s.sl = L

theorem setArr_arr_ne {s : SAP α} {k i : Bool} (h : k = !i) (a : SA α) :
    (s.setArr k a).arr i = s.arr i := by
  subst h; cases i <;> rfl

theorem setArr_arr_self (s : SAP α) (k : Bool) (a : SA α) : (s.setArr k a).arr k = a := by
  cases k <;> rfl

theorem setArr_sels (s : SAP α) (k : Bool) (a : SA α) :
    (s.setArr k a).outSel = s.outSel ∧ (s.setArr k a).inSel = s.inSel := by
  cases k <;> exact ⟨rfl, rfl⟩

theorem sep_nextOut {L : Nat} {i : Bool} {a : SA α} {c : Int} {ps ps' : Pass σ α} (h : Sep L i a c ps)
    (e : nextOut ps = .ok ps') : Sep L i a c ps' := by
  unfold nextOut at e
  split at e
  · simp only [getNextOutSegment, bind, Except.bind, pure, Except.pure] at e
    by_cases hc : (nextOutPrologue ps.s.sl ps.s.junk ps.s.outA).fnf =
        (nextOutPrologue ps.s.sl ps.s.junk ps.s.outA).cur
    · rw [if_pos hc] at e
      cases hg : pyGet (nextOutPrologue ps.s.sl ps.s.junk ps.s.outA).segs
          (nextOutPrologue ps.s.sl ps.s.junk ps.s.outA).cur with
      | error _ => rw [hg] at e; simp at e
      | ok x =>
        rw [hg] at e
        simp only [Except.ok.injEq] at e
        subst e
        refine ⟨h.outS, ?_, ?_, ?_, ?_⟩
        · rw [(setArr_sels _ _ _).1, h.outS]
        · rw [(setArr_sels _ _ _).2, h.inS]
        · rw [setArr_arr_ne h.outS, h.arr]
        · rw [setArr_sl, h.sl]
    · rw [if_neg hc] at e
      simp [throw, throwThe, MonadExceptOf.throw] at e
  · cases e; exact h

theorem sep_write {L : Nat} {i : Bool} {a : SA α} {c : Int} {ps : Pass σ α} (h : Sep L i a c ps) {x : α}
    {s' : SAP α} (e : ps.s.viewSet ps.vout ps.ipOut x = .ok s') (st : σ) (ip : Nat) (b : Bool)
    (cnt : Nat) : Sep L i a c { ps with s := s', st := st, ipOut := ip, indexChange := b, count := cnt } := by
  simp only [SAP.viewSet, bind, Except.bind, pure, Except.pure] at e
  split at e
  · cases e
  · simp only [Except.ok.injEq] at e
    subst e
    refine ⟨h.vout, ?_, ?_, ?_, ?_⟩
    · simp only; rw [(setArr_sels _ _ _).1, h.outS]
    · simp only; rw [(setArr_sels _ _ _).2, h.inS]
    · simp only; rw [setArr_arr_ne h.vout, h.arr]
    · simp only; rw [setArr_sl, h.sl]

theorem sep_countFull {L : Nat} {i : Bool} {a : SA α} {c : Int} {ps : Pass σ α} (h : Sep L i a c ps) :
    Sep L i a c (countFull ps) := by
  unfold countFull; split
  · exact ⟨h.vout, h.outS, h.inS, h.arr, h.sl⟩
  · exact h

/-- One particle. -/
theorem moveOne_sim (all : List φ) (adv : φ → Adv σ α) {L : Nat} {i : Bool} {a : SA α} {c : Int}
    {ps : Pass σ α} (h : Sep L i a c ps) (ip : Nat) (fs : List φ)
    (hfs : pyGet fs ip = pyGet all (c * L + ip)) :
    moveOne (fun st iIn iOut ch p => do
        let f ← pyGet fs ip
        adv f st iIn iOut ch p) ⟨i, c⟩ ip ps = moveOne (advI all adv) ⟨i, c⟩ ip ps ∧
      ∀ ps', moveOne (advI all adv) ⟨i, c⟩ ip ps = .ok ps' → Sep L i a c ps' := by
  unfold moveOne
  simp only [bind, Except.bind, pure, Except.pure]
  cases h1 : nextOut ps with
  | error e => simp
  | ok ps1 =>
    have hs1 := sep_nextOut h h1
    simp only
    cases h2 : ps1.s.viewGet ⟨i, c⟩ ip with
    | error e => simp
    | ok p =>
      have hidx : (ps1.s.getFullIndices ip ps1.ipOut).1 = c * L + ip := by
        unfold getFullIndices inA
        simp only [hs1.inS, hs1.arr, hs1.sl]
      simp only [advI, hidx, hfs, bind, Except.bind]
      refine ⟨trivial, ?_⟩
      intro ps' e
      cases h3 : pyGet all (c * L + ip) with
      | error e' => rw [h3] at e; simp at e
      | ok f =>
        simp only [h3] at e
        cases h4 : adv f ps1.st (c * L + ip) (ps1.s.getFullIndices ip ps1.ipOut).2 ps1.indexChange p with
        | error e' => rw [h4] at e; simp at e
        | ok r =>
          obtain ⟨st', p', keep⟩ := r
          simp only [h4] at e
          cases h5 : ps1.s.viewSet ps1.vout ps1.ipOut p' with
          | error e' => rw [h5] at e; simp at e
          | ok s' =>
            simp only [h5] at e
            cases keep with
            | true =>
              simp only [if_true, Except.ok.injEq] at e
              subst e
              exact sep_countFull (sep_write hs1 h5 _ _ _ _)
            | false =>
              simp only [Bool.false_eq_true, if_false, Except.ok.injEq] at e
              subst e
              exact sep_countFull (sep_write hs1 h5 _ _ _ _)

/-- A stretch of particles of a segment. -/
theorem moveItems_sim (all : List φ) (adv : φ → Adv σ α) {L : Nat} {i : Bool} {a : SA α} {c : Int}
    (fs : List φ) (k : Nat) : ∀ (ip : Nat) (ps : Pass σ α), Sep L i a c ps →
    (∀ j, ip ≤ j → j < ip + k → pyGet fs (j : Nat) = pyGet all (c * L + (j : Nat))) →
    moveItemsE adv ⟨i, c⟩ fs k ip ps = moveItems (advI all adv) ⟨i, c⟩ k ip ps ∧
      ∀ ps', moveItems (advI all adv) ⟨i, c⟩ k ip ps = .ok ps' → Sep L i a c ps' := by
  induction k with
  | zero =>
    intro ip ps h _
    simp only [moveItems, moveItemsE]
    refine ⟨trivial, ?_⟩
    intro ps' e; cases e; exact h
  | succ k ih =>
    intro ip ps h hfs
    obtain ⟨k1, k2⟩ := moveOne_sim all adv h ip fs (hfs ip (le_refl _) (by omega))
    simp only [moveItems, moveItemsE]
    rw [k1]
    simp only [bind, Except.bind]
    cases h1 : moveOne (advI all adv) ⟨i, c⟩ ip ps with
    | error e => simp
    | ok ps' => exact ih (ip + 1) ps' (k2 ps' h1) (fun j h1 h2 => hfs j (by omega) (by omega))

/-- What is needed from the preparation of a segment all slots of which satisfy `Ev`, and the
used ones `Us`: it succeeds,
keeps the invariant, and its entries are `Good` for the particles. -/
def PrepOk (prep : ρ → List α → Nat → Except Err (ρ × List φ)) (I : ρ → Prop) (Ev Us : α → Prop)
    (Good : α → φ → Prop) (L : Nat) : Prop :=
  ∀ r pseg n, I r → pseg.length = L → n ≤ L → (∀ p ∈ pseg, Ev p) → (∀ p ∈ pseg.take n, Us p) →
    ∃ r' fs, prep r pseg n = .ok (r', fs) ∧ I r' ∧ List.Forall₂ Good (pseg.take n) fs

/-- The preparations of a pass: `k` full segments from number `c` on and the last one. -/
def prepFrom (prep : ρ → List α → Nat → Except Err (ρ × List φ)) (L : Nat) (a : SA α) :
    Nat → Nat → ρ → Except Err (ρ × List φ)
  | 0, c, r => if a.fao = 0 then .ok (r, []) else prep r (a.segs.getD c []) a.fao.toNat
  | k + 1, c, r =>
    match prep r (a.segs.getD c []) L with
    | .error e => .error e
    | .ok (r1, fs) =>
      match prepFrom prep L a k (c + 1) r1 with
      | .error e => .error e
      | .ok (r2, l) => .ok (r2, fs ++ l)

theorem take_seg_zero {L : Nat} {a : SA α} (hlen : ∀ v ∈ a.segs, v.length = L) {c : Nat}
    (hc : c < a.segs.length) (hfao : a.fao.toNat ≤ L) :
    ((a.segs.drop c).flatten).take (0 * L + a.fao.toNat) = a.segs[c].take a.fao.toNat := by
  rw [List.drop_eq_getElem_cons hc, List.flatten_cons, List.take_append_of_le_length]
  · simp
  · rw [hlen _ (List.getElem_mem _)]; omega

theorem take_seg_succ {L : Nat} {a : SA α} (hlen : ∀ v ∈ a.segs, v.length = L) {c : Nat}
    (hc : c < a.segs.length) {k o : Nat} :
    ((a.segs.drop c).flatten).take ((k + 1) * L + o) = a.segs[c].take L ++
      ((a.segs.drop (c + 1)).flatten).take (k * L + o) := by
  have hmem : a.segs[c] ∈ a.segs := List.getElem_mem _
  rw [List.drop_eq_getElem_cons hc, List.flatten_cons, List.take_append, hlen _ hmem]
  have e1 : (k + 1) * L + o - L = k * L + o := by
    rw [Nat.succ_mul]; omega
  have e2 : a.segs[c].take ((k + 1) * L + o) = a.segs[c].take L := by
    rw [List.take_of_length_le, List.take_of_length_le]
    · rw [hlen _ hmem]
    · rw [hlen _ hmem, Nat.succ_mul]; omega
  rw [e1, e2]

theorem prepFrom_ok {prep : ρ → List α → Nat → Except Err (ρ × List φ)} {I : ρ → Prop}
    {Ev Us : α → Prop} {Good : α → φ → Prop} {L : Nat} (hp : PrepOk prep I Ev Us Good L) {a : SA α}
    (hlen : ∀ v ∈ a.segs, v.length = L) (hev : ∀ v ∈ a.segs, ∀ p ∈ v, Ev p)
    (h0 : 0 ≤ a.fao) (hfao : a.fao ≤ L) (k : Nat) : ∀ (c : Nat) (r : ρ), c + k < a.segs.length → I r →
    (∀ p ∈ ((a.segs.drop c).flatten).take (k * L + a.fao.toNat), Us p) →
    ∃ r' l, prepFrom prep L a k c r = .ok (r', l) ∧ I r' ∧
      List.Forall₂ Good (((a.segs.drop c).flatten).take (k * L + a.fao.toNat)) l := by
  induction k with
  | zero =>
    intro c r hc hI hus
    have hmem : a.segs[c] ∈ a.segs := List.getElem_mem _
    have hget : a.segs.getD c [] = a.segs[c] := by
      rw [List.getD_eq_getElem?_getD, List.getElem?_eq_getElem (by omega)]; rfl
    simp only [prepFrom, hget]
    by_cases hz : a.fao = 0
    · rw [if_pos hz, hz]
      refine ⟨r, [], rfl, hI, ?_⟩
      simp
    · rw [if_neg hz]
      obtain ⟨r', fs, h1, h2, h3⟩ := hp r a.segs[c] a.fao.toNat hI (hlen _ hmem) (by omega)
        (hev _ hmem) (fun p hp => hus p ((take_seg_zero hlen (by omega) (by omega)) ▸ hp))
      refine ⟨r', fs, h1, h2, ?_⟩
      rw [take_seg_zero hlen (by omega) (by omega)]
      exact h3
  | succ k ih =>
    intro c r hc hI hus
    have hmem : a.segs[c] ∈ a.segs := List.getElem_mem _
    have hget : a.segs.getD c [] = a.segs[c] := by
      rw [List.getD_eq_getElem?_getD, List.getElem?_eq_getElem (by omega)]; rfl
    simp only [prepFrom, hget]
    obtain ⟨r1, fs, h1, h2, h3⟩ := hp r a.segs[c] L hI (hlen _ hmem) (le_refl _) (hev _ hmem)
      (fun p hp => hus p (by rw [take_seg_succ hlen (by omega)]; exact List.mem_append_left _ hp))
    obtain ⟨r2, l, h4, h5, h6⟩ := ih (c + 1) r1 (by omega) h2
      (fun p hp => hus p (by rw [take_seg_succ hlen (by omega)]; exact List.mem_append_right _ hp))
    rw [h1]
    simp only [h4]
    refine ⟨r2, fs ++ l, rfl, h5, ?_⟩
    rw [take_seg_succ hlen (by omega)]
    exact List.rel_append h3 h6

theorem pyGet_append_drop {β : Type} (all fs l : List β) (m j : Nat) (h : all.drop m = fs ++ l)
    (hj : j < fs.length) : pyGet fs (j : Nat) = pyGet all ((m : Int) + (j : Nat)) := by
  have h1 : all[m + j]? = fs[j]? := by
    have := congrArg (fun x => x[j]?) h
    simp only [List.getElem?_drop] at this
    rw [this, List.getElem?_append_left hj]
  rw [show ((m : Int) + (j : Nat)) = ((m + j : Nat) : Int) by push_cast; rfl, pyGet_nat, pyGet_nat, h1]

/-- The segment loop. -/
theorem moveSegs_sim {prep : ρ → List α → Nat → Except Err (ρ × List φ)} {I : ρ → Prop}
    {Ev Us : α → Prop} {Good : α → φ → Prop} {L : Nat} (hp : PrepOk prep I Ev Us Good L)
    (adv : φ → Adv σ α) {i : Bool} {a : SA α} (hlen : ∀ v ∈ a.segs, v.length = L)
    (hev : ∀ v ∈ a.segs, ∀ p ∈ v, Ev p) (h0 : 0 ≤ a.fao) (hfao : a.fao ≤ L) (all : List φ)
    (k : Nat) : ∀ (c fuel : Nat) (n : Int) (r : ρ) (ps : Pass σ α), Sep L i a c ps → a.fnf = c + k →
    c + k < a.segs.length → n = (if k = 0 then a.fao else L) → (k = 0 → a.fao ≠ 0) → k < fuel → I r →
    (∀ p ∈ ((a.segs.drop c).flatten).take (k * L + a.fao.toNat), Us p) →
    ∀ r' l, prepFrom prep L a k c r = .ok (r', l) → all.drop (c * L) = l →
    moveSegsE prep adv fuel n (some ⟨i, c⟩) r ps =
      (moveSegs (advI all adv) fuel n (some ⟨i, c⟩) ps).map (fun x => (r', x)) := by
  induction k with
  | zero =>
    intro c fuel n r ps h hf hc hn hk hfu hI hus r' l hpf hall
    obtain ⟨fuel, rfl⟩ := Nat.exists_eq_succ_of_ne_zero (by omega : fuel ≠ 0)
    have hmem : a.segs[c] ∈ a.segs := List.getElem_mem _
    have hget : a.segs.getD c [] = a.segs[c] := by
      rw [List.getD_eq_getElem?_getD, List.getElem?_eq_getElem (by omega)]; rfl
    rw [if_pos rfl] at hn
    subst hn
    simp only [prepFrom, hget, if_neg (hk rfl)] at hpf
    simp only [moveSegs, moveSegsE, bind, Except.bind]
    rw [h.arr]
    simp only
    rw [pyGet_of_lt (by omega : c < a.segs.length)]
    simp only [hpf]
    obtain ⟨r2, fs2, h1, h2, h3⟩ := hp r a.segs[c] a.fao.toNat hI (hlen _ hmem) (by omega)
      (hev _ hmem) (fun p hp => hus p ((take_seg_zero hlen (by omega) (by omega)) ▸ hp))
    rw [hpf] at h1
    cases h1
    have hfl : l.length = a.fao.toNat := by
      rw [← h3.length_eq, List.length_take, hlen _ hmem]; omega
    obtain ⟨k1, k2⟩ := moveItems_sim all adv l a.fao.toNat 0 ps h (by
      intro j _ hj
      have := pyGet_append_drop all l [] (c * L) j (by rw [hall, List.append_nil]) (by omega)
      rw [this]; push_cast; rfl)
    rw [k1]
    cases h4 : moveItems (advI all adv) ⟨i, c⟩ a.fao.toNat 0 ps with
    | error e => rfl
    | ok ps1 =>
      have hs := k2 ps1 h4
      simp only
      have hn : ∃ s', ps1.s.getNextSegment .In = (s', (0, none)) := by
        unfold getNextSegment
        have hsel : ps1.s.sel .In = i := hs.inS
        simp only [hsel, hs.arr]
        rw [if_pos (by omega)]
        exact ⟨_, rfl⟩
      obtain ⟨s', hn⟩ := hn
      rw [hn]
      cases fuel <;> rfl
  | succ k ih =>
    intro c fuel n r ps h hf hc hn hk hfu hI hus r' l hpf hall
    obtain ⟨fuel, rfl⟩ := Nat.exists_eq_succ_of_ne_zero (by omega : fuel ≠ 0)
    have hmem : a.segs[c] ∈ a.segs := List.getElem_mem _
    have hget : a.segs.getD c [] = a.segs[c] := by
      rw [List.getD_eq_getElem?_getD, List.getElem?_eq_getElem (by omega)]; rfl
    rw [if_neg (by omega)] at hn
    subst hn
    obtain ⟨r1, fs, h1, h2, h3⟩ := hp r a.segs[c] L hI (hlen _ hmem) (le_refl _) (hev _ hmem)
      (fun p hp => hus p (by rw [take_seg_succ hlen (by omega)]; exact List.mem_append_left _ hp))
    have hus' : ∀ p ∈ ((a.segs.drop (c + 1)).flatten).take (k * L + a.fao.toNat), Us p :=
      fun p hp => hus p (by rw [take_seg_succ hlen (by omega)]; exact List.mem_append_right _ hp)
    obtain ⟨r2, l2, h5, h6, h7⟩ := prepFrom_ok hp hlen hev h0 hfao k (c + 1) r1 (by omega) h2 hus'
    simp only [prepFrom, hget, h1, h5, Except.ok.injEq, Prod.mk.injEq] at hpf
    obtain ⟨rfl, rfl⟩ := hpf
    simp only [moveSegs, moveSegsE, bind, Except.bind]
    rw [h.arr]
    simp only
    rw [pyGet_of_lt (by omega : c < a.segs.length)]
    simp only [Int.toNat_natCast, h1]
    have hfl : fs.length = L := by
      rw [← h3.length_eq, List.length_take, hlen _ hmem]; omega
    obtain ⟨k1, k2⟩ := moveItems_sim all adv fs L 0 ps h (by
      intro j _ hj
      have := pyGet_append_drop all fs l2 (c * L) j hall (by omega)
      rw [this]; push_cast; rfl)
    rw [k1]
    cases h4 : moveItems (advI all adv) ⟨i, c⟩ L 0 ps with
    | error e => rfl
    | ok ps1 =>
      have hs := k2 ps1 h4
      simp only
      have hn : ∃ s', Sep L i a ((c + 1 : Nat) : Int) { ps1 with s := s' } ∧
          ps1.s.getNextSegment .In = (s', if k = 0 then
            (if a.fao = 0 then (0, none) else (a.fao, some ⟨i, (c + 1 : Nat)⟩))
            else ((L : Int), some ⟨i, (c + 1 : Nat)⟩)) := by
        refine ⟨ps1.s.setArr i { a with cur := (c + 1 : Nat) }, ?_, ?_⟩
        · refine ⟨hs.vout, ?_, ?_, ?_, ?_⟩
          · simp only; rw [(setArr_sels _ _ _).1, hs.outS]
          · simp only; rw [(setArr_sels _ _ _).2, hs.inS]
          · simp only; rw [setArr_arr_self]
          · simp only; rw [setArr_sl, hs.sl]
        · unfold getNextSegment
          have hsel : ps1.s.sel .In = i := hs.inS
          simp only [hsel, hs.arr, hs.sl]
          rw [if_neg (by omega)]
          by_cases hk0 : k = 0
          · rw [if_pos hk0, if_pos (by omega)]
            split <;> simp
          · rw [if_neg hk0, if_neg (by omega)]
            simp
      obtain ⟨s', hs', hn⟩ := hn
      rw [hn]
      have hall' : all.drop ((c + 1) * L) = l2 := by
        rw [Nat.succ_mul, ← List.drop_drop, hall, ← hfl, List.drop_left]
      have main := ih (c + 1) fuel (if k = 0 then a.fao else L) r1 { ps1 with s := s' } hs'
        (by rw [hf]; push_cast; omega) (by omega) rfl
      by_cases hk0 : k = 0
      · subst hk0
        by_cases hz : a.fao = 0
        · simp only [prepFrom, if_pos hz, Except.ok.injEq, Prod.mk.injEq] at h5
          obtain ⟨rfl, rfl⟩ := h5
          simp only [if_true, if_pos hz]
          cases fuel <;> rfl
        · rw [if_pos rfl] at main
          simp only [if_true, if_neg hz]
          exact main (fun _ => hz) (by omega) h2 hus' r2 l2 h5 hall'
      · rw [if_neg hk0] at main
        simp only [if_neg hk0]
        exact main (fun h => absurd h hk0) (by omega) h2 hus' r2 l2 h5 hall'

theorem initInout_empty {s : SAP α} (hinv : s.Inv) (he : s.outA.fnf = 0 ∧ s.outA.fao = 0) :
    ∃ s1, s.initInoutLoop = (s1, (0, none)) := by
  have hin : (!s.inSel) = s.outSel := by rw [hinv.sel, Bool.not_not]
  have h1 : ((({ s with a0 := { s.a0 with cur := 0 }, a1 := { s.a1 with cur := 0 } } : SAP α).setArr
      (!s.outSel) { ({ s with a0 := { s.a0 with cur := 0 }, a1 := { s.a1 with cur := 0 } } :
        SAP α).arr (!s.outSel) with fnf := 0, fao := 0 }).arr (!s.inSel)) =
      { s.outA with cur := 0 } := by
    rw [hin]
    unfold outA
    cases s.outSel <;> rfl
  unfold initInoutLoop
  simp only
  rw [h1, if_pos he]
  exact ⟨_, rfl⟩

theorem initInout_some {s : SAP α} (hinv : s.Inv) (he : ¬ (s.outA.fnf = 0 ∧ s.outA.fao = 0)) :
    ∃ s1, s.initInoutLoop = (s1, (firstCount s.sl s.outA,
          some (⟨s.outSel, 0⟩, ⟨!s.outSel, 0⟩))) ∧ s1.outSel = !s.outSel ∧ s1.inSel = s.outSel ∧
          s1.arr s.outSel = { s.outA with cur := 0 } ∧ s1.sl = s.sl := by
  have hin : (!s.inSel) = s.outSel := by rw [hinv.sel, Bool.not_not]
  have h1 : ((({ s with a0 := { s.a0 with cur := 0 }, a1 := { s.a1 with cur := 0 } } : SAP α).setArr
      (!s.outSel) { ({ s with a0 := { s.a0 with cur := 0 }, a1 := { s.a1 with cur := 0 } } :
        SAP α).arr (!s.outSel) with fnf := 0, fao := 0 }).arr (!s.inSel)) =
      { s.outA with cur := 0 } := by
    rw [hin]
    unfold outA
    cases s.outSel <;> rfl
  refine ⟨s.initInoutLoop.1, ?_, ?_, ?_, ?_, ?_⟩
  · unfold initInoutLoop
    simp only
    rw [h1, if_neg he, hin]
    rfl
  · unfold initInoutLoop
    simp only
    rw [h1, if_neg he]
  · unfold initInoutLoop
    simp only
    rw [h1, if_neg he]
    exact hin
  · unfold initInoutLoop
    simp only
    rw [h1, if_neg he]
    rw [hin] at h1
    exact h1
  · unfold initInoutLoop
    simp only
    rw [h1, if_neg he]
    simp only [setArr_sl]

/-- An error in the preparation of the first segment is an error of the pass. -/
theorem meshPassE_prep_error {prep : ρ → List α → Nat → Except Err (ρ × List φ)} {s : SAP α}
    (adv : φ → Adv σ α) (hinv : s.Inv) (hn : s.getNumberOfItems ≠ 0) (r : ρ) (st : σ) (e : Err)
    (hp : ∀ n, prep r (s.outA.segs.getD 0 []) n = .error e) : meshPassE prep adv s r st = .error e := by
  have he : ¬ (s.outA.fnf = 0 ∧ s.outA.fao = 0) := by
    rintro ⟨h1, h2⟩
    apply hn
    simp [getNumberOfItems, h1, h2]
  obtain ⟨f, o, hf, ho, hfl, -⟩ := hinv.out.total
  obtain ⟨s1, h1, h2, h3, h4, h5⟩ := initInout_some hinv he
  have hget : s.outA.segs.getD 0 [] = s.outA.segs[0] := by
    rw [List.getD_eq_getElem?_getD, List.getElem?_eq_getElem (by omega)]; rfl
  have h6 : pyGet s.outA.segs 0 = .ok s.outA.segs[0] :=
    pyGet_of_lt (n := 0) (by omega : 0 < s.outA.segs.length)
  unfold meshPassE
  simp only [h1, moveSegsE, bind, Except.bind, h4, h6, ← hget, hp]

/-- A whole pass: there is a list of fields, one for each particle stored, such that the pass is
the one in which every particle finds its field in the list. -/
theorem meshPass_sim {prep : ρ → List α → Nat → Except Err (ρ × List φ)} {I : ρ → Prop}
    {Ev Us : α → Prop} {Good : α → φ → Prop} {s : SAP α} (hp : PrepOk prep I Ev Us Good s.sl)
    (adv : φ → Adv σ α) (hinv : s.Inv) (hev : ∀ v ∈ s.outA.segs, ∀ p ∈ v, Ev p)
    (hus : ∀ p ∈ s.contents, Us p) (r : ρ) (hI : I r) (st : σ) : ∃ all r', List.Forall₂ Good s.contents all ∧ I r' ∧
      meshPassE prep adv s r st =
        (meshPass (advI all adv) s st).map (fun x => (x.1, r', x.2)) := by
  have hsel : s.inSel = !s.outSel := hinv.sel
  have hW := hinv.out
  have hin : (!s.inSel) = s.outSel := by rw [hsel, Bool.not_not]
  have hlen : ∀ v ∈ s.outA.segs, v.length = s.sl := fun v hv => hW.uni v hv
  obtain ⟨f, o, hf, ho, hfl, hol, hfla, htot⟩ := hW.total
  have hcont : s.contents = (s.outA.segs.drop 0).flatten.take (f * s.sl + s.outA.fao.toNat) := by
    unfold contents SA.items
    rw [hf, ho]
    congr 1
  obtain ⟨r', all, hpf, hI', hgood⟩ := prepFrom_ok hp hlen hev (by omega) (by omega) f 0 r
    (by omega) hI (by rw [← hcont]; exact hus)
  rw [← hcont] at hgood
  by_cases he : s.outA.fnf = 0 ∧ s.outA.fao = 0
  · obtain ⟨s1, h1⟩ := initInout_empty hinv he
    refine ⟨all, r, hgood, hI, ?_⟩
    unfold meshPass meshPassE
    simp only [h1]
    rfl
  · refine ⟨all, r', hgood, hI', ?_⟩
    obtain ⟨s1, h1, h2, h3, h4, h5⟩ := initInout_some hinv he
    unfold meshPass meshPassE
    simp only [h1]
    have key := moveSegs_sim hp adv (i := s.outSel) hlen hev (by omega) (by omega) all f 0
      (s.outA.nseg + 1) (firstCount s.sl s.outA) r
      { s := s1, vout := ⟨!s.outSel, 0⟩, ipOut := 0, count := 0, indexChange := false, st := st }
      ⟨rfl, h2, h3, h4, h5⟩ (by rw [hf]; simp) (by omega)
      (by unfold firstCount; rw [hf]; by_cases h : f = 0 <;> simp [h])
      (by intro h h'; exact he ⟨by rw [hf, h]; rfl, h'⟩)
      (by rw [hW.nseg]; omega) hI (by rw [← hcont]; exact hus) r' all hpf (by simp)
    simp only [bind, Except.bind, pure, Except.pure]
    rw [show ((0 : Nat) : Int) = 0 from rfl] at key
    rw [key]
    cases moveSegs (advI all adv) (s.outA.nseg + 1) (firstCount s.sl s.outA)
        (some ⟨s.outSel, 0⟩)
        { s := s1, vout := ⟨!s.outSel, 0⟩, ipOut := 0, count := 0, indexChange := false,
          st := st } with
    | error e => rfl
    | ok ps' => rfl

end Mover

namespace EField
open Mover (PrepOk)
variable {K : Type} [Field K] [DecidableEq K] {d : Nat} {α γ : Type}

theorem set_mid {β : Type} (A B : List β) (x : β) {ip : Nat} (h : A.length = ip) (hB : B ≠ []) :
    (A ++ B).set ip x = (A ++ [x]) ++ B.drop 1 := by
  subst h
  cases B with
  | nil => exact absurd rfl hB
  | cons b B => simp

theorem interpolate_ok (F : α → Except Err (Vec K d)) (ps : List α)
    (hev : ∀ p ∈ ps, ∃ w, F p = .ok w) : ∃ ws, List.Forall₂ (fun p w => F p = .ok w) ps ws ∧
    ∀ (A B : List (Vec K d)) (ip : Nat), A.length = ip → ps.length ≤ B.length →
    interpolate F ps ip (A ++ B) = .ok (A ++ ws ++ B.drop ps.length) := by
  induction ps with
  | nil => exact ⟨[], .nil, fun A B ip _ _ => by simp [interpolate]⟩
  | cons p ps ih =>
    obtain ⟨w, hw⟩ := hev p (by simp)
    obtain ⟨ws, h1, h2⟩ := ih (fun q hq => hev q (by simp [hq]))
    refine ⟨w :: ws, .cons hw h1, ?_⟩
    intro A B ip h hB
    simp only [List.length_cons] at hB
    have hne : B ≠ [] := by intro h0; subst h0; simp at hB
    simp only [interpolate, bind, Except.bind, hw]
    rw [pySet_of_lt _ (by rw [List.length_append]; omega)]
    simp only
    rw [set_mid A B w h hne, h2 (A ++ [w]) (B.drop 1) (ip + 1) (by simp [h])
      (by rw [List.length_drop]; omega)]
    simp [Nat.add_comm]

theorem interpolateRandom_ok (normal : γ → K × γ) (F : α → Except Err (Vec K d)) (ps : List α)
    (hev : ∀ p ∈ ps, ∃ w, F p = .ok w) : ∀ g, ∃ xs g',
    List.Forall₂ (fun p x => ∃ w g, F p = .ok w ∧ x = (normal g).1 • w) ps xs ∧
    ∀ (A B : List (Vec K d)) (ip : Nat), A.length = ip → ps.length ≤ B.length →
    interpolateRandom normal F ps ip (A ++ B) g = .ok (A ++ xs ++ B.drop ps.length, g') := by
  induction ps with
  | nil => exact fun g => ⟨[], g, .nil, fun A B ip _ _ => by simp [interpolateRandom]⟩
  | cons p ps ih =>
    intro g
    obtain ⟨w, hw⟩ := hev p (by simp)
    obtain ⟨xs, g', h1, h2⟩ := ih (fun q hq => hev q (by simp [hq])) (randomized normal w g).2
    refine ⟨(randomized normal w g).1 :: xs, g', .cons ⟨w, g, hw, ?_⟩ h1, ?_⟩
    · unfold randomized
      split
      · rfl
      · next h =>
        rw [not_not] at h
        rw [h]
        funext i; simp
    intro A B ip h hB
    simp only [List.length_cons] at hB
    have hne : B ≠ [] := by intro h0; subst h0; simp at hB
    simp only [interpolateRandom, bind, Except.bind, hw]
    rw [pySet_of_lt _ (by rw [List.length_append]; omega)]
    simp only
    rw [set_mid A B _ h hne, h2 (A ++ [_]) (B.drop 1) (ip + 1) (by simp [h])
      (by rw [List.length_drop]; omega)]
    simp [Nat.add_comm]

theorem combine_ok (f : Vec K d → Vec K d → Vec K d) (X D other : List (Vec K d)) :
    combine f X.length (X ++ D) other = List.zipWith f X (other.take X.length) ++ D := by
  unfold combine; rw [List.take_left, List.drop_left]

/-- The scratch arrays fit a segment, and the array of zeros is zero. -/
def ScratchOk (L : Nat) (scr : Scratch K d) : Prop :=
  scr.negE.length = L ∧ scr.ext.length = L ∧ scr.zero = List.replicate L 0

/-- The switches have a value for the species, and it is not the case that a solved field is given
but off while an external field is on. -/
structure Selected (fl : Fields K d α) (sOn xOn : Bool) : Prop where
  solved : fl.neg.isSome = true → fl.solvedSw.isOn fl.species = .ok sOn
  ext : fl.ext.isSome = true → fl.extSw.isOn fl.species = .ok xOn
  both : ¬ (fl.neg.isSome = true ∧ sOn = false ∧ fl.ext.isSome = true ∧ xOn = true)

/-- A field that counts can be evaluated. -/
def Evaluable (F : Option (α → Except Err (Vec K d))) (on : Bool) (p : α) : Prop :=
  ∀ G, F = some G → on = true → ∃ w, G p = .ok w

/-- What a particle should find. -/
def Good (fl : Fields K d α) (normal : γ → K × γ) (sOn xOn : Bool) (p : α) (f : FieldAt K d) :
    Prop :=
  ∃ e x, Spec.IsSolved fl.neg sOn p e ∧ Spec.IsExternal normal fl.ext xOn p x ∧
    f.kick = (if fl.neg.isSome = true ∧ sOn = false then none else some (e + x)) ∧
    f.cross = Spec.crossing fl.neg.isSome sOn fl.ext.isSome xOn e x

theorem solvedPart_ok (fl : Fields K d α) {sOn : Bool}
    (hs : fl.neg.isSome = true → fl.solvedSw.isOn fl.species = .ok sOn)
    (hon : ¬ (fl.neg.isSome = true ∧ sOn = false)) (pseg : List α) (n : Nat)
    (hn : n ≤ pseg.length) (hev : ∀ p ∈ pseg.take n, Evaluable fl.neg sOn p) (scr : Scratch K d)
    (hscr : ScratchOk pseg.length scr) :
    ∃ es, List.Forall₂ (Spec.IsSolved fl.neg sOn) (pseg.take n) es ∧
      solvedPart fl.solvedSw fl.species fl.neg pseg n scr =
        .ok (⟨es ++ scr.negE.drop n, scr.ext, scr.zero⟩, true) := by
  obtain ⟨h1, h2, h3⟩ := hscr
  have hnl : (pseg.take n).length = n := by rw [List.length_take]; omega
  cases hneg : fl.neg with
  | none =>
    refine ⟨List.replicate n 0, ?_, ?_⟩
    · rw [List.forall₂_iff_get]
      refine ⟨by simp; omega, ?_⟩
      intro i _ _
      simp [Spec.IsSolved]
    · simp only [solvedPart]
      have hx : (scr.negE.take n).length = n := by rw [List.length_take]; omega
      have hc := combine_ok (fun _ z => z) (scr.negE.take n) (scr.negE.drop n) scr.zero
      rw [List.take_append_drop, hx] at hc
      rw [hc, h3, List.take_replicate, Nat.min_eq_left hn]
      have : List.zipWith (fun _ z => z) (scr.negE.take n) (List.replicate n (0 : Vec K d)) =
          List.replicate n 0 := by
        apply List.ext_getElem
        · simp; omega
        · intro i h4 h5; simp
      rw [this]
  | some F =>
    have hsO : sOn = true := by
      rw [hneg] at hon; simpa using hon
    subst hsO
    have hsw := hs (by rw [hneg]; rfl)
    obtain ⟨ws, hw1, hw2⟩ := interpolate_ok F (pseg.take n) (fun p hp => hev p hp F hneg rfl)
    refine ⟨ws.map (fun w => -w), ?_, ?_⟩
    · rw [List.forall₂_map_right_iff]
      exact hw1.imp (fun p w h => by simp only [Spec.IsSolved, if_true]; exact ⟨w, h, rfl⟩)
    · simp only [solvedPart, hsw, bind, Except.bind, if_true, pure, Except.pure]
      have := hw2 [] scr.negE 0 rfl (by rw [hnl, h1]; omega)
      rw [List.nil_append, List.nil_append, hnl] at this
      rw [this]
      simp only
      have hwl : ws.length = n := by rw [← hw1.length_eq, hnl]
      have hc := combine_ok (fun v _ => -v) ws (scr.negE.drop n) (ws ++ scr.negE.drop n)
      rw [List.take_left, hwl] at hc
      rw [hc, List.zipWith_self]

theorem entries_true (n : Nat) (X D : List (Vec K d)) (h : X.length = n) :
    entries true n (X ++ D) = X.map some := by
  subst h; simp [entries]

theorem forall₂_zip_some {φ : Type} {P Q : α → Vec K d → Prop} {G : α → φ → Prop}
    (C : Option (Vec K d) → Option (Vec K d) → φ)
    (hC : ∀ p e x, P p e → Q p x → G p (C (some (e + x)) (some x))) {ps : List α}
    {es : List (Vec K d)} (he : List.Forall₂ P ps es) : ∀ {xs : List (Vec K d)},
    List.Forall₂ Q ps xs → List.Forall₂ G ps
      (List.zipWith C ((List.zipWith (· + ·) es xs).map some) (xs.map some)) := by
  induction he with
  | nil => intro xs hx; cases hx; exact .nil
  | cons h1 h2 ih =>
    intro xs hx
    cases hx with
    | cons h3 h4 => exact .cons (hC _ _ _ h1 h3) (ih h4)

theorem forall₂_zip_none {φ : Type} {P : α → Vec K d → Prop} {G : α → φ → Prop}
    (C : Option (Vec K d) → Option (Vec K d) → φ) (hC : ∀ p e, P p e → G p (C (some e) none))
    {ps : List α} {es : List (Vec K d)} (he : List.Forall₂ P ps es) :
    List.Forall₂ G ps (List.zipWith C (es.map some) (List.replicate ps.length none)) := by
  induction he with
  | nil => exact .nil
  | cons h1 h2 ih => exact .cons (hC _ _ h1) ih

theorem prepare_ok (fl : Fields K d α) (normal : γ → K × γ) {sOn xOn : Bool}
    (hsel : Selected fl sOn xOn) (L : Nat) :
    PrepOk (prepare fl normal) (fun r => ScratchOk L r.1) (Evaluable fl.ext xOn)
      (Evaluable fl.neg sOn) (Good fl normal sOn xOn) L := by
  rintro ⟨scr, g⟩ pseg n hscr hl hn hevx hevs
  subst hl
  simp only at hscr
  obtain ⟨hs, hx, hb⟩ := hsel
  have hnl : (pseg.take n).length = n := by rw [List.length_take]; omega
  have hdl : (scr.negE.drop n).length = pseg.length - n := by rw [List.length_drop, hscr.1]
  by_cases hon : fl.ext.isSome = true ∧ xOn = true
  · obtain ⟨F, hF⟩ := Option.isSome_iff_exists.1 hon.1
    have hns : ¬ (fl.neg.isSome = true ∧ sOn = false) := fun h => hb ⟨h.1, h.2, hon.1, hon.2⟩
    obtain ⟨es, he1, he2⟩ := solvedPart_ok fl hs hns pseg n hn hevs scr hscr
    have hel : es.length = n := by rw [← he1.length_eq, hnl]
    obtain ⟨xs, g', hx1, hx2⟩ := interpolateRandom_ok normal F pseg
      (fun p hp => hevx p hp F hF hon.2) g
    have hxl : xs.length = pseg.length := hx1.length_eq.symm
    have h3 := hx2 [] scr.ext 0 rfl (by rw [hscr.2.1])
    rw [List.nil_append, List.nil_append, ← hscr.2.1, List.drop_length, List.append_nil] at h3
    have hc := combine_ok (· + ·) es (scr.negE.drop n) xs
    rw [hel] at hc
    have hxt : List.Forall₂ (fun p x => ∃ w g, F p = .ok w ∧ x = (normal g).1 • w) (pseg.take n)
        (xs.take n) := List.forall₂_take n hx1
    refine ⟨(⟨List.zipWith (· + ·) es (xs.take n) ++ scr.negE.drop n, xs, scr.zero⟩, g'),
      List.zipWith (fun e x => ⟨e, crossFields e fl.ext.isSome x⟩)
        ((List.zipWith (· + ·) es (xs.take n)).map some) ((xs.take n).map some), ?_, ?_, ?_⟩
    · have hxon : fl.extSw.isOn fl.species = .ok true := by rw [← hon.2]; exact hx hon.1
      have hX : externalPart fl.extSw fl.species normal fl.ext pseg n
          ⟨es ++ scr.negE.drop n, scr.ext, scr.zero⟩ true g = .ok
            (⟨List.zipWith (· + ·) es (xs.take n) ++ scr.negE.drop n, xs, scr.zero⟩, g', true) := by
        rw [hF]
        simp only [externalPart, hxon, bind, Except.bind, if_true, pure, Except.pure, h3, hc]
      simp only [prepare, he2, hX, bind, Except.bind, pure, Except.pure]
      have hzl : (List.zipWith (· + ·) es (xs.take n)).length = n := by
        rw [List.length_zipWith, List.length_take]; omega
      rw [entries_true _ _ _ hzl]
      rfl
    · refine ⟨?_, ?_, hscr.2.2⟩
      · simp only [List.length_append, List.length_zipWith, List.length_take]; omega
      · exact hxl
    · refine forall₂_zip_some (fun e x => (⟨e, crossFields e fl.ext.isSome x⟩ : FieldAt K d)) ?_
        he1 hxt
      rintro p e x h1 ⟨w, g1, h2, h4⟩
      refine ⟨e, x, h1, ?_, ?_, ?_⟩
      · rw [hF, hon.2]; simp only [Spec.IsExternal, if_true]; exact ⟨w, g1, h2, h4⟩
      · rw [if_neg hns]
      · unfold Spec.crossing
        rw [if_neg hns, if_neg (by rw [hon.2]; simp)]
        simp [crossFields, hon.1]
  · have hexp : ∀ (scr1 : Scratch K d) (b : Bool),
        externalPart fl.extSw fl.species normal fl.ext pseg n scr1 b g = .ok (scr1, g, false) := by
      intro scr1 b
      cases h : fl.ext with
      | none => rfl
      | some F =>
        rw [h] at hon
        have : xOn = false := by simpa using hon
        subst this
        simp [externalPart, hx (by rw [h]; rfl), bind, Except.bind, pure, Except.pure]
    have hext : ∀ p, Spec.IsExternal normal fl.ext xOn p 0 := by
      intro p
      cases h : fl.ext with
      | none => simp [Spec.IsExternal]
      | some F =>
        rw [h] at hon
        have : xOn = false := by simpa using hon
        subst this
        simp [Spec.IsExternal]
    by_cases hns : fl.neg.isSome = true ∧ sOn = false
    · obtain ⟨F, hF⟩ := Option.isSome_iff_exists.1 hns.1
      have hS : solvedPart fl.solvedSw fl.species fl.neg pseg n scr = .ok (scr, false) := by
        rw [hF]
        simp [solvedPart, hs hns.1, hns.2, bind, Except.bind, pure, Except.pure]
      refine ⟨(scr, g), List.zipWith (fun e x => ⟨e, crossFields e fl.ext.isSome x⟩)
        (List.replicate n none) (List.replicate n none), ?_, hscr, ?_⟩
      · simp only [prepare, hS, hexp, bind, Except.bind, pure, Except.pure]
        rfl
      · rw [List.forall₂_iff_get]
        refine ⟨by simp; omega, ?_⟩
        intro i _ _
        refine ⟨0, 0, ?_, hext _, ?_, ?_⟩
        · rw [hF, hns.2]; simp [Spec.IsSolved]
        · rw [if_pos hns]; simp
        · unfold Spec.crossing
          rw [if_pos hns]; simp [crossFields]
    · obtain ⟨es, he1, he2⟩ := solvedPart_ok fl hs hns pseg n hn hevs scr hscr
      have hel : es.length = n := by rw [← he1.length_eq, hnl]
      refine ⟨(⟨es ++ scr.negE.drop n, scr.ext, scr.zero⟩, g),
        List.zipWith (fun e x => ⟨e, crossFields e fl.ext.isSome x⟩)
          (es.map some) (List.replicate n none), ?_, ?_, ?_⟩
      · simp only [prepare, he2, hexp, bind, Except.bind, pure, Except.pure]
        rw [entries_true _ _ _ hel]
        rfl
      · refine ⟨?_, hscr.2.1, hscr.2.2⟩
        simp only [List.length_append]; omega
      · have := forall₂_zip_none (G := Good fl normal sOn xOn)
          (fun e x => (⟨e, crossFields e fl.ext.isSome x⟩ : FieldAt K d)) (by
            intro p e h
            refine ⟨e, 0, h, hext p, ?_, ?_⟩
            · rw [if_neg hns]; simp
            · unfold Spec.crossing
              rw [if_neg hns]
              simp only [crossFields]
              by_cases h2 : fl.ext.isSome = true
              · have : xOn = false := by
                  rcases Bool.eq_false_or_eq_true xOn with h | h
                  · exact absurd ⟨h2, h⟩ hon
                  · exact h
                rw [if_pos h2, if_pos ⟨h2, this⟩]
              · rw [if_neg h2, if_neg (fun h => h2 h.1)]; simp) he1
        rw [hnl] at this
        exact this

end EField
end Dt
