import Verif.Model.Species
import Verif.Lemmas.OutLoop

/-! # Loops that update the stored particles in place -/

namespace Dt
namespace SAP
variable {α : Type}

/-- Same container up to the items and the cursor of the "out" array. -/
structure Alike (s t : SAP α) : Prop where
  inv : t.Inv
  sl : t.sl = s.sl
  outSel : t.outSel = s.outSel
  fnf : t.outA.fnf = s.outA.fnf
  fao : t.outA.fao = s.outA.fao
  nseg : t.outA.nseg = s.outA.nseg

theorem Alike.trans {s t u : SAP α} (h : Alike s t) (h' : Alike t u) : Alike s u :=
  ⟨h'.inv, h'.sl.trans h.sl, h'.outSel.trans h.outSel, h'.fnf.trans h.fnf, h'.fao.trans h.fao,
    h'.nseg.trans h.nseg⟩

theorem Alike.length {s t : SAP α} (h : Alike s t) (hs : s.Inv) :
    t.contents.length = s.contents.length := by
  have h1 := contents_length hs
  have h2 := contents_length h.inv
  unfold getNumberOfItems at h1 h2
  rw [h.fnf, h.fao, h.sl] at h2
  omega

theorem viewGet_out {s : SAP α} (h : s.Inv) (q r : Nat) (hr : r < s.sl)
    (hi : q * s.sl + r < s.contents.length) :
    s.viewGet ⟨s.outSel, q⟩ r = .ok (s.contents[q * s.sl + r]) := by
  have e := getItem_ok h hi
  have hd : pyDivmod (((q * s.sl + r : Nat)) : Int) s.sl = ((q : Int), (r : Int)) := by
    rw [pyDivmod_nat, Nat.add_comm, Nat.add_mul_div_right _ _ h.out.pos, Nat.div_eq_of_lt hr,
      Nat.add_mul_mod_self_right, Nat.mod_eq_of_lt hr]
    simp
  unfold getItem at e
  rw [hd] at e
  exact e

theorem viewSet_out {s : SAP α} (h : s.Inv) (q r : Nat) (hr : r < s.sl) (v : α) :
    s.viewSet ⟨s.outSel, q⟩ r v = s.setItem ((q * s.sl + r : Nat) : Int) v := by
  have hd : pyDivmod (((q * s.sl + r : Nat)) : Int) s.sl = ((q : Int), (r : Int)) := by
    rw [pyDivmod_nat, Nat.add_comm, Nat.add_mul_div_right _ _ h.out.pos, Nat.div_eq_of_lt hr,
      Nat.add_mul_mod_self_right, Nat.mod_eq_of_lt hr]
    simp
  unfold setItem
  rw [hd]
  rfl

theorem withCur_self (s : SAP α) : s.withCur s.outA.cur = s := by
  obtain ⟨sl, junk, a0, a1, i, o⟩ := s
  cases o <;> rfl

end SAP

namespace Species
open SAP
variable {α : Type}

/-- The effect on one particle. -/
def indexOne (locate : α → Int) (inside : α → Except Err Bool) (setCell : α → Int → α) (p : α) :
    Except Err α := do
  let ok ← inside (setCell p (locate p))
  if ok then .ok (setCell p (locate p)) else .error .runtime

variable {locate : α → Int} {inside : α → Except Err Bool} {setCell : α → Int → α}

theorem take_drop_set (xs : List α) (i : Nat) (v : α) (h : i < xs.length) :
    (xs.set i v).take i = xs.take i ∧ (xs.set i v).drop (i + 1) = xs.drop (i + 1) := by
  constructor
  · rw [List.take_set, List.set_eq_of_length_le (by simp)]
  · exact List.drop_set_of_lt (by omega)

theorem indexItems_ok (q : Nat) (k ip : Nat) {s : SAP α} (h : s.Inv) (h1 : ip + k ≤ s.sl)
    (h2 : q * s.sl + ip + k ≤ s.contents.length) :
    match ((s.contents.drop (q * s.sl + ip)).take k).mapM (indexOne locate inside setCell) with
    | .error e => indexItems locate inside setCell ⟨s.outSel, q⟩ k ip s = .error e
    | .ok ys => ∃ s', indexItems locate inside setCell ⟨s.outSel, q⟩ k ip s = .ok s' ∧ Alike s s' ∧
        s'.outA.cur = s.outA.cur ∧
        s'.contents = s.contents.take (q * s.sl + ip) ++ ys ++ s.contents.drop (q * s.sl + ip + k) := by
  induction k generalizing ip s with
  | zero =>
    simp only [List.take_zero, List.mapM_nil, pure, Except.pure]
    exact ⟨s, rfl, ⟨h, rfl, rfl, rfl, rfl, rfl⟩, rfl, by simp⟩
  | succ k ih =>
    have hlt : q * s.sl + ip < s.contents.length := by omega
    have hcons : (s.contents.drop (q * s.sl + ip)).take (k + 1) =
        s.contents[q * s.sl + ip] :: (s.contents.drop (q * s.sl + (ip + 1))).take k := by
      rw [List.drop_eq_getElem_cons hlt, List.take_succ_cons]; rfl
    rw [hcons, List.mapM_cons]
    generalize hp : s.contents[q * s.sl + ip] = p
    simp only [indexItems, viewGet_out h q ip (by omega) hlt, viewSet_out h q ip (by omega), hp,
      bind, Except.bind]
    obtain ⟨s1, e1, i1, c1, sl1, _, _, _, os1, cur1, fnf1, fao1, ns1⟩ :=
      setItem_ok h hlt (setCell p (locate p))
    rw [e1]
    simp only [indexOne, bind, Except.bind]
    cases hin : inside (setCell p (locate p)) with
    | error e => simp
    | ok b =>
      cases b with
      | false => simp
      | true =>
        simp only [if_true]
        have hlen : s1.contents.length = s.contents.length := by rw [c1]; simp
        have := ih (ip + 1) i1 (by rw [sl1]; omega) (by rw [sl1, hlen]; omega)
        obtain ⟨ht, hd⟩ := take_drop_set s.contents (q * s.sl + ip) (setCell p (locate p)) hlt
        rw [sl1, os1] at this
        have hdrop : s1.contents.drop (q * s.sl + (ip + 1)) = s.contents.drop (q * s.sl + (ip + 1)) := by
          rw [c1]; exact hd
        rw [hdrop] at this
        cases hm : ((s.contents.drop (q * s.sl + (ip + 1))).take k).mapM
            (indexOne locate inside setCell) with
        | error e => rw [hm] at this; simpa using this
        | ok ys =>
          rw [hm] at this
          obtain ⟨s', e', al, cur', c'⟩ := this
          refine ⟨s', by simpa using e', ⟨al.inv, al.sl.trans sl1, al.outSel.trans os1,
            al.fnf.trans fnf1, al.fao.trans fao1, al.nseg.trans ns1⟩, by rw [cur', cur1], ?_⟩
          rw [c']
          have e3 : s1.contents.take (q * s.sl + (ip + 1)) =
              s.contents.take (q * s.sl + ip) ++ [setCell p (locate p)] := by
            rw [c1, show q * s.sl + (ip + 1) = (q * s.sl + ip) + 1 by omega, List.take_add_one, ht]
            simp [hlt]
          rw [e3, c1, show q * s.sl + (ip + 1) + k = q * s.sl + ip + (k + 1) by omega]
          have e4 : (s.contents.set (q * s.sl + ip) (setCell p (locate p))).drop (q * s.sl + ip + (k + 1)) =
              s.contents.drop (q * s.sl + ip + (k + 1)) := List.drop_set_of_lt (by omega)
          rw [e4]
          simp [pure, Except.pure]

/-- The loop body of `indexSpecies`. -/
def indexBody (locate : α → Int) (inside : α → Except Err Bool) (setCell : α → Int → α) :
    SAP α → View → Int → Unit → Except Err (SAP α × Unit) :=
  fun s v n _ => do
    let s' ← indexItems locate inside setCell v n.toNat 0 s
    return (s', ())

theorem mapM_split (f : α → Except Err α) (xs : List α) (n : Nat) :
    xs.mapM f = (do let a ← (xs.take n).mapM f; let b ← (xs.drop n).mapM f; return a ++ b) := by
  conv_lhs => rw [← List.take_append_drop n xs]
  rw [List.mapM_append]

theorem mapM_length {f : α → Except Err α} {xs ys : List α} (h : xs.mapM f = .ok ys) :
    ys.length = xs.length := by
  induction xs generalizing ys with
  | nil => simp only [List.mapM_nil, pure, Except.pure, Except.ok.injEq] at h; simp [← h]
  | cons x xs ih =>
    rw [List.mapM_cons] at h
    simp only [bind, Except.bind, pure, Except.pure] at h
    split at h
    · cases h
    · split at h
      · cases h
      · rename_i _ _ _ _ hq
        simp only [Except.ok.injEq] at h
        rw [← h]; simp [ih hq]

theorem outLoopAux_index (k q : Nat) {s : SAP α} (h : s.Inv) (hcur : s.outA.cur = q)
    (hq : (q : Int) + k = s.outA.fnf) (hne : s.outA.fnf = q → s.outA.fao ≠ 0) (fuel : Nat)
    (hfuel : k < fuel) :
    match (s.contents.drop (q * s.sl)).mapM (indexOne locate inside setCell) with
    | .error e => outLoopAux (indexBody locate inside setCell) fuel s
        (if s.outA.fnf = q then s.outA.fao else s.sl) (some ⟨s.outSel, q⟩) () = .error e
    | .ok ys => ∃ s', outLoopAux (indexBody locate inside setCell) fuel s
        (if s.outA.fnf = q then s.outA.fao else s.sl) (some ⟨s.outSel, q⟩) () = .ok (s', ()) ∧
        Alike s s' ∧ s'.contents = s.contents.take (q * s.sl) ++ ys := by
  induction k generalizing q fuel s with
  | zero =>
    obtain ⟨f, o, hf, ho, hfl, hol, hfl2, hle⟩ := h.out.total
    have hcl := contents_length h
    unfold getNumberOfItems at hcl
    have hqf : f = q := by omega
    subst hqf
    obtain ⟨fuel, rfl⟩ : ∃ m, fuel = m + 1 := ⟨fuel - 1, by omega⟩
    have hcl' : s.contents.length = f * s.sl + o := by rw [hf, ho] at hcl; exact_mod_cast hcl
    have key := indexItems_ok (locate := locate) (inside := inside) (setCell := setCell) f o 0 h
      (by omega) (by omega)
    rw [if_pos hf, ho]
    have hall : (s.contents.drop (f * s.sl + 0)).take o = s.contents.drop (f * s.sl) := by
      apply List.take_of_length_le; simp [hcl']
    rw [hall] at key
    simp only [outLoopAux, indexBody, bind, Except.bind, Int.toNat_natCast, pure, Except.pure]
    cases hm : (s.contents.drop (f * s.sl)).mapM (indexOne locate inside setCell) with
    | error e => rw [hm] at key; simp only [key]
    | ok ys =>
      rw [hm] at key
      obtain ⟨s', e', al, cur', c'⟩ := key
      simp only [e']
      have hs' : s' = s'.withCur f := by
        conv_lhs => rw [← withCur_self s', cur', hcur]
      have hg : s'.getNextSegment .Out = (s'.withCur (f + 1), (0, none)) := by
        conv_lhs => rw [hs']
        rw [getNextSegment_out_eq]
        simp only [withCur_outA, al.fnf, withCur_withCur]
        rw [if_pos (by omega)]
      rw [hg]
      simp only [outLoopAux]
      refine ⟨_, rfl, al.trans ⟨withCur_inv al.inv _, by simp, by simp, by simp, by simp, by simp⟩, ?_⟩
      rw [withCur_contents, c', List.drop_eq_nil_of_le (by omega)]
      simp
  | succ k ih =>
    obtain ⟨f, o, hf, ho, hfl, hol, hfl2, hle⟩ := h.out.total
    have hcl := contents_length h
    unfold getNumberOfItems at hcl
    obtain ⟨fuel, rfl⟩ : ∃ m, fuel = m + 1 := ⟨fuel - 1, by omega⟩
    have hcl' : s.contents.length = f * s.sl + o := by rw [hf, ho] at hcl; exact_mod_cast hcl
    have hmul : (q + 1) * s.sl ≤ f * s.sl := Nat.mul_le_mul_right _ (by omega)
    rw [Nat.succ_mul] at hmul
    have key := indexItems_ok (locate := locate) (inside := inside) (setCell := setCell) q s.sl 0 h
      (by omega) (by omega)
    rw [if_neg (by omega), mapM_split _ _ s.sl]
    rw [Nat.add_zero] at key
    rw [List.drop_drop, show q * s.sl + s.sl = (q + 1) * s.sl by rw [Nat.succ_mul]]
    simp only [outLoopAux, indexBody, bind, Except.bind, Int.toNat_natCast, pure, Except.pure]
    cases hm : ((s.contents.drop (q * s.sl)).take s.sl).mapM (indexOne locate inside setCell) with
    | error e => rw [hm] at key; simp only [key]
    | ok ys =>
      rw [hm] at key
      obtain ⟨s1, e1, al, cur1, c1⟩ := key
      simp only [e1]
      have hs1 : s1 = s1.withCur q := by
        conv_lhs => rw [← withCur_self s1, cur1, hcur]
      have hyl : ys.length = s.sl := by
        rw [mapM_length hm]; simp [hcl']; omega
      have htl : (s.contents.take (q * s.sl) ++ ys).length = (q + 1) * s.sl := by
        rw [List.length_append, List.length_take, hyl, Nat.succ_mul]; omega
      have c1' : s1.contents = (s.contents.take (q * s.sl) ++ ys) ++
          s.contents.drop ((q + 1) * s.sl) := by
        rw [c1, Nat.succ_mul]
      have hg : s1.getNextSegment .Out = (s1.withCur ((q : Int) + 1),
          if s.outA.fnf = (q : Int) + 1 then
            if s.outA.fao = 0 then (0, none) else (s.outA.fao, some ⟨s.outSel, (q : Int) + 1⟩)
          else ((s.sl : Int), some ⟨s.outSel, (q : Int) + 1⟩)) := by
        rw [hs1, getNextSegment_out_eq]
        simp only [withCur_withCur, withCur_outA, withCur_outSel, withCur_sl, al.fnf, al.fao,
          al.outSel, al.sl]
        rw [if_neg (by omega)]
      have alw : Alike s (s1.withCur ((q : Int) + 1)) :=
        al.trans ⟨withCur_inv al.inv _, by simp, by simp, by simp, by simp, by simp⟩
      have hdrop : s1.contents.drop ((q + 1) * s.sl) = s.contents.drop ((q + 1) * s.sl) := by
        rw [c1', List.drop_append_of_le_length (by omega), List.drop_eq_nil_of_le (by omega)]
        simp
      rw [hg]
      dsimp only
      by_cases hlast : s.outA.fnf = (q : Int) + 1 ∧ s.outA.fao = 0
      · rw [if_pos hlast.1, if_pos hlast.2]
        have hnil : s.contents.drop ((q + 1) * s.sl) = [] := by
          apply List.drop_eq_nil_of_le
          have h1 : f = q + 1 := by omega
          have h2 : o = 0 := by omega
          rw [hcl', h1, h2]; omega
        rw [hnil]
        simp only [List.mapM_nil, pure, Except.pure, outLoopAux]
        refine ⟨_, rfl, alw, ?_⟩
        rw [withCur_contents, c1', hnil]
        simp
      · have hn : (if s.outA.fnf = (q : Int) + 1 then
            if s.outA.fao = 0 then ((0 : Int), none) else (s.outA.fao, some (⟨s.outSel, (q : Int) + 1⟩ : View))
          else ((s.sl : Int), some ⟨s.outSel, (q : Int) + 1⟩)) =
            (if s.outA.fnf = ((q + 1 : Nat) : Int) then s.outA.fao else (s.sl : Int),
              some ⟨s.outSel, ((q + 1 : Nat) : Int)⟩) := by
          push_cast
          by_cases h1 : s.outA.fnf = (q : Int) + 1
          · have h2 : s.outA.fao ≠ 0 := fun hc => hlast ⟨h1, hc⟩
            rw [if_pos h1, if_neg h2, if_pos h1]
          · rw [if_neg h1, if_neg h1]
        rw [hn]
        have := ih (q + 1) (s := s1.withCur ((q : Int) + 1)) alw.inv (by simp)
          (by rw [alw.fnf]; push_cast; omega)
          (by intro hh; rw [alw.fnf] at hh; rw [alw.fao]; push_cast at hh
              exact fun hc => hlast ⟨hh, hc⟩) fuel (by omega)
        rw [alw.fnf, alw.fao, alw.sl, alw.outSel, withCur_contents, hdrop] at this
        cases hm2 : (s.contents.drop ((q + 1) * s.sl)).mapM (indexOne locate inside setCell) with
        | error e => rw [hm2] at this; exact this
        | ok zs =>
          rw [hm2] at this
          obtain ⟨s', e', al', c'⟩ := this
          refine ⟨s', e', alw.trans al', ?_⟩
          rw [c', c1', List.take_append_of_le_length (by omega), List.take_of_length_le (by omega)]
          simp

theorem indexSpecies_ok {s : SAP α} (h : s.Inv) :
    match s.contents.mapM (indexOne locate inside setCell) with
    | .error e => indexSpecies locate inside setCell s = .error e
    | .ok ys => ∃ s', indexSpecies locate inside setCell s = .ok s' ∧ Alike s s' ∧ s'.contents = ys := by
  have hb : indexSpecies locate inside setCell s =
      (outLoop (indexBody locate inside setCell) s ()).map (·.1) := by
    unfold indexSpecies
    change (do let r ← outLoop (indexBody locate inside setCell) s (); pure r.1) = _
    cases outLoop (indexBody locate inside setCell) s () <;> rfl
  rw [hb]
  unfold outLoop
  rw [initOutLoop_eq]
  have al0 : Alike s (s.withCur 0) :=
    ⟨withCur_inv h _, by simp, by simp, by simp, by simp, by simp⟩
  by_cases h0 : s.contents = []
  · have h1 := (contents_nil_iff h.out).1 h0
    rw [if_pos h1, h0]
    simp only [List.mapM_nil, pure, Except.pure, outLoopAux]
    exact ⟨_, rfl, al0, by simp [h0]⟩
  · have h1 : ¬ (s.outA.fnf = 0 ∧ s.outA.fao = 0) := fun hc => h0 ((contents_nil_iff h.out).2 hc)
    rw [if_neg h1]
    obtain ⟨f, o, hf, ho, hfl, hol, hfl2, hle⟩ := h.out.total
    have := outLoopAux_index (locate := locate) (inside := inside) (setCell := setCell) f 0
      al0.inv (by simp) (by simp [hf])
      (by intro hc hd; simp at hc hd; exact h1 ⟨hc, hd⟩)
      (s.outA.nseg + 1) (by rw [h.out.nseg]; omega)
    simp only [withCur_contents, withCur_sl, withCur_outSel, withCur_outA, Nat.zero_mul,
      List.drop_zero, List.take_zero, List.nil_append] at this
    simp only [firstCount]
    cases hm : s.contents.mapM (indexOne locate inside setCell) with
    | error e =>
      rw [hm] at this
      simp only [Int.natCast_zero] at this
      simp only [this, Except.map]
    | ok ys =>
      rw [hm] at this
      obtain ⟨s', e', al', c'⟩ := this
      simp only [Int.natCast_zero] at e'
      refine ⟨s', by simp only [e', Except.map], al0.trans al', c'⟩

end Species
end Dt
