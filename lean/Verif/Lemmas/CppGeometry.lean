import Verif.Lemmas.Hull
import Verif.Spec.CppGeometry

set_option linter.unusedSectionVars false

namespace Dt
variable {K : Type}

theorem loadVec_of {xs : List K} {off g : Nat} {v : Vec K g} (hg : 0 < g)
    (h : ∀ i : Fin g, xs[off + i.1]? = some (v i)) : loadVec xs off g = .ok v := by
  have hl : off + g ≤ xs.length := by
    have := (List.getElem?_eq_some_iff.1 (h ⟨g - 1, by omega⟩)).1
    simp only at this
    omega
  unfold loadVec
  rw [dif_pos hl]
  congr 1
  funext i
  have := h i
  rw [List.getElem?_eq_getElem (by omega)] at this
  exact Option.some.inj this

theorem cGet_of {β : Type} {xs : List β} {i : Nat} {b : β} (h : xs[i]? = some b) :
    cGet xs (i : Int) = .ok b := by
  unfold cGet
  rw [if_pos (by omega), Int.toNat_natCast, h]

theorem flatMap_get {β γ : Type} {m : Nat} (f : β → List γ) (hf : ∀ b, (f b).length = m) :
    ∀ (l : List β) (k i : Nat), i < m → (l.flatMap f)[k * m + i]? = (l[k]?).bind (fun b => (f b)[i]?) := by
  intro l
  induction l with
  | nil => intro k i _; simp
  | cons b l ih =>
    intro k i hi
    rw [List.flatMap_cons]
    cases k with
    | zero =>
      rw [Nat.zero_mul, Nat.zero_add, List.getElem?_append_left (by rw [hf]; exact hi)]
      simp
    | succ k =>
      rw [List.getElem?_append_right (by rw [hf]; nlinarith)]
      rw [show (k + 1) * m + i - (f b).length = k * m + i by rw [hf]; rw [Nat.succ_mul]; omega]
      rw [ih k i hi]
      simp

/-- Tables made from the same Dolfin cell are twins. -/
theorem twin_of_tables {g : Nat} (hg : g ≤ 3) (normal : Nat → Vec K 3) (nf : Nat) (c : Cell K g)
    (hn : c.normals = pyNormalTable g hg normal nf) :
    CppCell.Twin ⟨cppNormalTable normal nf, vertexTable c.verts⟩ c := by
  constructor
  · intro k n hk i
    have hi : i.1 < 3 := by omega
    rw [hn] at hk
    unfold pyNormalTable at hk
    rw [List.getElem?_map] at hk
    unfold cppNormalTable
    dsimp only
    rw [flatMap_get (m := 3) _ (fun _ => rfl) _ _ _ hi]
    cases hr : (List.range nf)[k]? with
    | none => rw [hr] at hk; cases hk
    | some fi =>
      rw [hr] at hk
      simp only [Option.map_some, Option.some.injEq] at hk
      subst hk
      simp only [Option.bind_some]
      obtain ⟨i, hi'⟩ := i
      dsimp only at hi
      have : i = 0 ∨ i = 1 ∨ i = 2 := by omega
      rcases this with rfl | rfl | rfl <;> rfl
  · intro j v hj i
    unfold vertexTable
    dsimp only
    rw [flatMap_get (m := g) _ (fun b => List.length_ofFn) _ _ _ i.2, hj]
    simp

variable [Field K] [LinearOrder K] [IsStrictOrderedRing K] {g : Nat}

theorem cppTestFacet_eq {cc : CppCell K} {c : Cell K g} (ht : cc.Twin c) (hg : 0 < g)
    (hv : c.verts.length = g + 1) (hn : c.normals.length = g + 1) {k w : Nat} (hk : k ≤ g) (hw : w ≤ g)
    (x0 dx : Vec K g) (acc : Int × K) :
    cppTestFacet g cc x0 dx k w acc = testFacet c x0 dx (k : Int) (w : Int) acc := by
  have e1 : c.normals[k]? = some (c.normals[k]'(by omega)) := List.getElem?_eq_getElem _
  have e2 : c.verts[w]? = some (c.verts[w]'(by omega)) := List.getElem?_eq_getElem _
  unfold cppTestFacet testFacet
  rw [loadVec_of hg (ht.normals k _ e1), pyGet_nat_of e1]
  simp only [bind, Except.bind]
  split
  · rw [loadVec_of hg (ht.coords w _ e2), pyGet_nat_of e2]
  · rfl

theorem cppNormal_eq {cc : CppCell K} {c : Cell K g} (ht : cc.Twin c) (hg : 0 < g)
    (hn : c.normals.length = g + 1) {k : Nat} (hk : k ≤ g) :
    cppNormal g cc (k : Int) = pyGet c.normals (k : Int) := by
  have e1 : c.normals[k]? = some (c.normals[k]'(by omega)) := List.getElem?_eq_getElem _
  rw [pyGet_nat_of e1]
  unfold cppNormal
  rw [if_pos (by omega), Int.toNat_natCast, loadVec_of hg (ht.normals k _ e1)]

theorem okay_of_len {c : Cell K g} (hv : c.verts.length = g + 1) (hn : c.normals.length = g + 1)
    {k w : Nat} (hk : k ≤ g) (hw : w ≤ g) : Okay c ((k : Int), (w : Int)) := by
  refine ⟨by simp, by simp, ?_, ?_⟩
  · simp; omega
  · simp; omega

/-- The end of the function in 2D and 3D. -/
theorem tail_eq {cc : CppCell K} {c : Cell K g} (ht : cc.Twin c) (hg : 0 < g) (hg1 : g ≠ 1)
    (hn : c.normals.length = g + 1) {r : Int × K} (hr : r.1 = -1 ∨ ∃ k : Nat, k ≤ g ∧ r.1 = k)
    (still : Prop) [Decidable still] (hs : ¬ still) :
    (if r.2 > 1 ∨ r.2 < 0 then (.error .exit : Except Err (Int × K × Option (Vec K g)))
      else (cppNormal g cc r.1).bind (fun n => .ok (r.1, r.2, some n))) =
    cppReply g still (if r.2 > 1 ∨ r.2 < 0 then .error .exit
      else (pyGet c.normals r.1).bind (fun n => .ok (r.1, r.2, some n))) := by
  by_cases hb : r.2 > 1 ∨ r.2 < 0
  · rw [if_pos hb, if_pos hb]; rfl
  · rw [if_neg hb, if_neg hb]
    rcases hr with h | ⟨k, hk, h⟩
    · rw [h]
      have hl : c.normals.length - 1 < c.normals.length := by omega
      have e : pyGet c.normals (-1) = .ok (c.normals[c.normals.length - 1]) := by
        unfold pyGet
        rw [if_neg (by omega), if_pos (by omega)]
        have : (-1 + (c.normals.length : Int)).toNat = c.normals.length - 1 := by omega
        rw [this, List.getElem?_eq_getElem hl]; rfl
      rw [e]
      simp only [Except.bind, cppReply, true_and]
      rw [if_pos hs, if_neg hg1]
      unfold cppNormal
      rw [if_neg (by omega)]
    · rw [h, cppNormal_eq ht hg hn hk]
      have e1 : c.normals[k]? = some (c.normals[k]'(by omega)) := List.getElem?_eq_getElem _
      rw [pyGet_nat_of e1]
      simp only [Except.bind, cppReply]
      rw [if_neg (by omega)]

theorem tested_facet {c : Cell K g} {x0 dx : Vec K g} {L : List (Int × Int)} {r : Int × K}
    (ht : Tested c x0 dx L (-1, 1) r) (hL : ∀ kw ∈ L, ∃ k : Nat, k ≤ g ∧ kw.1 = k) :
    r.1 = -1 ∨ ∃ k : Nat, k ≤ g ∧ r.1 = k := by
  rcases ht.from_ with h | ⟨kw, hk, h, -⟩
  · left; rw [h]
  · right
    obtain ⟨k, hk', e⟩ := hL kw hk
    exact ⟨k, hk', by rw [h, e]⟩

theorem cppFindFacet_eq {M : Mesh K g} {ci : Int} {c : Cell K g} (hc : M.cell ci = some c)
    (hdim : 1 ≤ g ∧ g ≤ 3) (hv : c.verts.length = g + 1) (hn : c.normals.length = g + 1)
    {cc : CppCell K} (ht : cc.Twin c) (x0 dx : Vec K g) :
    cppFindFacet g cc x0 dx = cppReply g (dot dx dx = 0) (M.findFacet x0 dx ci) := by
  have hg : 0 < g := hdim.1
  by_cases hd : dot dx dx = 0
  · have h1 : M.findFacet x0 dx ci = .ok (noFacet, 1, none) := by
      unfold Mesh.findFacet
      rw [if_pos hd]
    rw [h1]
    simp only [cppReply]
    rw [if_neg (by rintro ⟨-, h⟩; exact h hd)]
    rcases dim_cases hdim with rfl | rfl | rfl
    · simp only [cppFindFacet, if_pos hd]
    · simp only [cppFindFacet, if_pos hd]
    · simp only [cppFindFacet, if_pos hd]
  · have hlk : M.lookup ci = .ok c := by unfold Mesh.lookup; rw [hc]
    have hT : ∀ {k w : Nat} (_ : k ≤ g) (_ : w ≤ g) (acc : Int × K),
        cppTestFacet g cc x0 dx k w acc = testFacet c x0 dx (k : Int) (w : Int) acc :=
      fun hk hw acc => cppTestFacet_eq ht hg hv hn hk hw x0 dx acc
    rcases dim_cases hdim with rfl | rfl | rfl
    · -- 1D
      obtain ⟨r0, e0, t0⟩ := testOne (okay_of_len hv hn (k := 0) (w := 0) (by omega) (by omega)) x0 dx
        (-1, 1)
      obtain ⟨r1, e1, t1⟩ := testOne (okay_of_len hv hn (k := 1) (w := 1) (by omega) (by omega)) x0 dx
        (-1, 1)
      simp only [Nat.cast_zero, Nat.cast_one] at e0 e1
      have hpy : M.findFacet x0 dx ci = findFacet1 c x0 dx := by
        unfold Mesh.findFacet
        rw [if_neg hd, hlk]; rfl
      rw [hpy]
      simp only [cppFindFacet, if_neg hd]
      unfold cppFindFacet1 findFacet1
      rw [if_neg hd, hT (k := 0) (w := 0) (by omega) (by omega)]
      simp only [noFacet, bind, Except.bind, Nat.cast_zero, e0]
      by_cases h0 : r0.1 = 0
      · rw [if_pos h0, if_pos h0, if_pos ⟨t0.nonneg zero_le_one, t0.le⟩, h0]
        have e2 : c.normals[0]? = some (c.normals[0]'(by omega)) := List.getElem?_eq_getElem _
        rw [show (0 : Int) = ((0 : Nat) : Int) from rfl, cppNormal_eq ht hg hn (k := 0) (by omega),
          pyGet_nat_of e2]
        simp only [pure, Except.pure, cppReply]
        rw [if_neg (by simp)]
      · rw [if_neg h0, if_neg h0]
        rw [hT (k := 1) (w := 1) (by omega) (by omega)]
        simp only [Nat.cast_one, e1]
        by_cases h1 : r1.1 = 1
        · rw [if_pos h1, if_pos h1, if_pos ⟨t1.nonneg zero_le_one, t1.le⟩, h1]
          have e2 : c.normals[1]? = some (c.normals[1]'(by omega)) := List.getElem?_eq_getElem _
          rw [show (1 : Int) = ((1 : Nat) : Int) from rfl, cppNormal_eq ht hg hn (k := 1) (by omega),
            pyGet_nat_of e2]
          simp only [pure, Except.pure, cppReply]
          rw [if_neg (by simp)]
        · rw [if_neg h1, if_neg h1]
          have hr1 : r1 = (-1, 1) := by
            rcases t1.from_ with h | ⟨kw, hk, h, -⟩
            · exact h
            · simp only [List.mem_singleton] at hk
              subst hk
              exact absurd h h1
          rw [hr1]
          simp only
          rw [if_neg (by simp)]
          have hl : c.normals.length - 1 < c.normals.length := by omega
          have e : pyGet c.normals (-1) = .ok (c.normals[c.normals.length - 1]) := by
            unfold pyGet
            rw [if_neg (by omega), if_pos (by omega)]
            have : (-1 + (c.normals.length : Int)).toNat = c.normals.length - 1 := by omega
            rw [this, List.getElem?_eq_getElem hl]; rfl
          rw [e]
          simp only [pure, Except.pure, cppReply, true_and]
          rw [if_pos hd]; rfl
    · -- 2D
      have hpy : M.findFacet x0 dx ci = findFacetMulti c x0 dx := by
        unfold Mesh.findFacet
        rw [if_neg hd, hlk]; rfl
      rw [hpy]
      simp only [cppFindFacet, if_neg hd]
      unfold cppFindFacet2 findFacetMulti
      rw [if_neg hd]
      obtain ⟨r, e, tt⟩ := testAll_ok (c := c) x0 dx (facetTests 2) (-1, 1) (by
        intro kw hk
        simp only [facetTests, List.mem_cons, List.not_mem_nil, or_false] at hk
        rcases hk with rfl | rfl | rfl
        · exact okay_of_len hv hn (k := 0) (w := 1) (by omega) (by omega)
        · exact okay_of_len hv hn (k := 1) (w := 2) (by omega) (by omega)
        · exact okay_of_len hv hn (k := 2) (w := 0) (by omega) (by omega))
      have hr := tested_facet tt (by
        intro kw hk
        simp only [facetTests, List.mem_cons, List.not_mem_nil, or_false] at hk
        rcases hk with rfl | rfl | rfl
        · exact ⟨0, by omega, rfl⟩
        · exact ⟨1, by omega, rfl⟩
        · exact ⟨2, by omega, rfl⟩)
      have hcpp : ((cppTestFacet 2 cc x0 dx 0 1 (-1, 1)).bind (fun a =>
          (cppTestFacet 2 cc x0 dx 1 2 a).bind (fun a => cppTestFacet 2 cc x0 dx 2 0 a))) = .ok r := by
        rw [← e]
        simp only [facetTests, testAll, bind]
        rw [hT (k := 0) (w := 1) (by omega) (by omega)]
        simp only [Nat.cast_zero, Nat.cast_one]
        cases testFacet c x0 dx 0 1 (-1, 1) with
        | error e => rfl
        | ok a =>
          simp only [Except.bind]
          rw [hT (k := 1) (w := 2) (by omega) (by omega)]
          simp only [Nat.cast_ofNat, Nat.cast_one]
          cases testFacet c x0 dx 1 2 a with
          | error e => rfl
          | ok a =>
            simp only
            rw [hT (k := 2) (w := 0) (by omega) (by omega)]
            simp only [Nat.cast_ofNat, Nat.cast_zero]
            cases testFacet c x0 dx 2 0 a with
            | error e => rfl
            | ok a => rfl
      have := tail_eq ht hg (by omega) hn hr (dot dx dx = 0) hd
      rw [show (testAll c x0 dx (facetTests 2) (noFacet, 1)) = .ok r from e]
      refine Eq.trans ?_ (this.trans ?_)
      · simp only [bind, noFacet] at hcpp ⊢
        cases h1 : cppTestFacet 2 cc x0 dx 0 1 (-1, 1) with
        | error e => rw [h1] at hcpp; cases hcpp
        | ok a =>
          rw [h1] at hcpp
          simp only [Except.bind] at hcpp ⊢
          cases h2 : cppTestFacet 2 cc x0 dx 1 2 a with
          | error e => rw [h2] at hcpp; cases hcpp
          | ok b =>
            rw [h2] at hcpp
            simp only at hcpp ⊢
            rw [hcpp]; rfl
      · rfl
    · -- 3D
      have hpy : M.findFacet x0 dx ci = findFacetMulti c x0 dx := by
        unfold Mesh.findFacet
        rw [if_neg hd, hlk]; rfl
      rw [hpy]
      simp only [cppFindFacet, if_neg hd]
      unfold cppFindFacet3 findFacetMulti
      rw [if_neg hd]
      obtain ⟨r, e, tt⟩ := testAll_ok (c := c) x0 dx (facetTests 3) (-1, 1) (by
        intro kw hk
        simp only [facetTests, List.mem_cons, List.not_mem_nil, or_false] at hk
        rcases hk with rfl | rfl | rfl | rfl
        · exact okay_of_len hv hn (k := 0) (w := 1) (by omega) (by omega)
        · exact okay_of_len hv hn (k := 1) (w := 2) (by omega) (by omega)
        · exact okay_of_len hv hn (k := 2) (w := 3) (by omega) (by omega)
        · exact okay_of_len hv hn (k := 3) (w := 0) (by omega) (by omega))
      have hr := tested_facet tt (by
        intro kw hk
        simp only [facetTests, List.mem_cons, List.not_mem_nil, or_false] at hk
        rcases hk with rfl | rfl | rfl | rfl
        · exact ⟨0, by omega, rfl⟩
        · exact ⟨1, by omega, rfl⟩
        · exact ⟨2, by omega, rfl⟩
        · exact ⟨3, by omega, rfl⟩)
      have hcpp : ((cppTestFacet 3 cc x0 dx 0 1 (-1, 1)).bind (fun a =>
          (cppTestFacet 3 cc x0 dx 1 2 a).bind (fun a => (cppTestFacet 3 cc x0 dx 2 3 a).bind (fun a =>
            cppTestFacet 3 cc x0 dx 3 0 a)))) = .ok r := by
        rw [← e]
        simp only [facetTests, testAll, bind]
        rw [hT (k := 0) (w := 1) (by omega) (by omega)]
        simp only [Nat.cast_zero, Nat.cast_one]
        cases testFacet c x0 dx 0 1 (-1, 1) with
        | error e => rfl
        | ok a =>
          simp only [Except.bind]
          rw [hT (k := 1) (w := 2) (by omega) (by omega)]
          simp only [Nat.cast_ofNat, Nat.cast_one]
          cases testFacet c x0 dx 1 2 a with
          | error e => rfl
          | ok a =>
            simp only
            rw [hT (k := 2) (w := 3) (by omega) (by omega)]
            simp only [Nat.cast_ofNat]
            cases testFacet c x0 dx 2 3 a with
            | error e => rfl
            | ok a =>
              simp only
              rw [hT (k := 3) (w := 0) (by omega) (by omega)]
              simp only [Nat.cast_ofNat, Nat.cast_zero]
              cases testFacet c x0 dx 3 0 a with
              | error e => rfl
              | ok a => rfl
      have := tail_eq ht hg (by omega) hn hr (dot dx dx = 0) hd
      rw [show (testAll c x0 dx (facetTests 3) (noFacet, 1)) = .ok r from e]
      refine Eq.trans ?_ (this.trans ?_)
      · simp only [bind, noFacet] at hcpp ⊢
        cases h1 : cppTestFacet 3 cc x0 dx 0 1 (-1, 1) with
        | error e => rw [h1] at hcpp; cases hcpp
        | ok a =>
          rw [h1] at hcpp
          simp only [Except.bind] at hcpp ⊢
          cases h2 : cppTestFacet 3 cc x0 dx 1 2 a with
          | error e => rw [h2] at hcpp; cases hcpp
          | ok b =>
            rw [h2] at hcpp
            simp only at hcpp ⊢
            cases h3 : cppTestFacet 3 cc x0 dx 2 3 b with
            | error e => rw [h3] at hcpp; cases hcpp
            | ok b' =>
              rw [h3] at hcpp
              simp only at hcpp ⊢
              rw [hcpp]; rfl
      · rfl

end Dt
