import Verif.Props.CppRounded
import Verif.Spec.RoundedTwin

/-!
# Python and compiled code agree to the last bit, except in the recorded times (C135)
-/

set_option linter.unusedSectionVars false

namespace Dt
open SAP Spec CppMover
variable {K : Type} [Field K] [LinearOrder K] [IsStrictOrderedRing K] {g p : Nat} {τ ρ : Type}

namespace RoundedTwin

/-! ### `find_facet` -/

theorem testFacet_same {C : CArith K} {A : Arith K g} (hS : SameMachine C A) {cc : CppCell K} {c : Cell K g} (ht : cc.Twin c) (hg : 0 < g)
    (hv : c.verts.length = g + 1) (hn : c.normals.length = g + 1) {k w : Nat} (hk : k ≤ g) (hw : w ≤ g) (x0 dx : Vec K g) (acc : Int × K) :
    CppRounded.testFacet C g cc x0 dx k w acc = Rounded.testFacet A c x0 dx (k : Int) (w : Int) acc := by
  have e1 : c.normals[k]? = some (c.normals[k]'(by omega)) := List.getElem?_eq_getElem _
  have e2 : c.verts[w]? = some (c.verts[w]'(by omega)) := List.getElem?_eq_getElem _
  unfold CppRounded.testFacet Rounded.testFacet
  rw [loadVec_of hg (ht.normals k _ e1), pyGet_nat_of e1, hS.fl, hS.dot]
  simp only [bind, Except.bind]
  split
  · rw [loadVec_of hg (ht.coords w _ e2), pyGet_nat_of e2]
  · rfl

/-- The result of the search if a facet is found. -/
def usable (r : Except Err (Int × K × Option (Vec K g))) : Option (Int × K × Option (Vec K g)) :=
  r.toOption.bind (fun t => if t.1 = -1 then none else some t)

theorem usable_some {r : Except Err (Int × K × Option (Vec K g))} {t : Int × K × Option (Vec K g)} (e : usable r = some t) :
    r = .ok t ∧ t.1 ≠ -1 := by
  unfold usable at e
  cases r with
  | error x => cases e
  | ok t' =>
    simp only [Except.toOption, Option.bind_some] at e
    split at e
    · cases e
    · cases e; exact ⟨rfl, by assumption⟩

theorem usable_none {r : Except Err (Int × K × Option (Vec K g))} (e : usable r = none) :
    (∃ x, r = .error x) ∨ ∃ f n, r = .ok (-1, f, n) := by
  unfold usable at e
  cases r with
  | error x => exact .inl ⟨x, rfl⟩
  | ok t' =>
    obtain ⟨k, f, n⟩ := t'
    simp only [Except.toOption, Option.bind_some] at e
    split at e
    · rename_i h; exact .inr ⟨f, n, by rw [h]⟩
    · cases e

theorem usable_tail {cc : CppCell K} {c : Cell K g} (ht : cc.Twin c) (hg : 0 < g) (hn : c.normals.length = g + 1) {r : Int × K}
    (hr : r.1 = -1 ∨ (0 ≤ r.1 ∧ r.1 ≤ g)) :
    usable ((cppNormal g cc r.1).bind (fun n => .ok (r.1, r.2, some n))) = usable ((pyGet c.normals r.1).bind (fun n => .ok (r.1, r.2, some n))) := by
  rcases hr with h | ⟨h0, h1⟩
  · rw [h]
    have : cppNormal g cc (-1) = .error .ub := by unfold cppNormal; rw [if_neg (by omega)]
    rw [this]
    cases pyGet c.normals (-1) with
    | error x => rfl
    | ok n => simp [usable, Except.bind, Except.toOption]
  · obtain ⟨k, hk⟩ := Int.eq_ofNat_of_zero_le h0
    rw [hk, cppNormal_eq ht hg hn (by omega)]

theorem findFacet_same {C : CArith K} {A : Arith K g} (hA : IsRounding A) (hS : SameMachine C A) {M : Mesh K g} {ci : Int} {c : Cell K g}
    (hc : M.cell ci = some c) (hdim : 1 ≤ g ∧ g ≤ 3) (hv : c.verts.length = g + 1) (hn : c.normals.length = g + 1)
    {cc : CppCell K} (ht : cc.Twin c) (x0 dx : Vec K g) :
    usable (CppRounded.findFacet C g cc x0 dx) = usable (Rounded.findFacet A M x0 dx ci) := by
  have hg : 0 < g := hdim.1
  have hlk : M.lookup ci = .ok c := by unfold Mesh.lookup; rw [hc]
  have hT : ∀ {k w : Nat} (_ : k ≤ g) (_ : w ≤ g) (acc : Int × K),
      CppRounded.testFacet C g cc x0 dx k w acc = Rounded.testFacet A c x0 dx (k : Int) (w : Int) acc :=
    fun hk hw acc => testFacet_same hS ht hg hv hn hk hw x0 dx acc
  have hd := congrFun (congrFun hS.dot dx) dx
  by_cases h0 : A.dot dx dx = 0
  · have e1 : Rounded.findFacet A M x0 dx ci = .ok (noFacet, 1, none) := by unfold Rounded.findFacet; rw [if_pos h0]
    have e2 : CppRounded.findFacet C g cc x0 dx = .ok (noFacet, 1, none) := by
      rcases dim_cases hdim with rfl | rfl | rfl <;> simp only [CppRounded.findFacet, hd, if_pos h0]
    rw [e1, e2]
  · rcases dim_cases hdim with rfl | rfl | rfl
    · have e1 : Rounded.findFacet A M x0 dx ci = Rounded.findFacet1 A c x0 dx := by
        unfold Rounded.findFacet; rw [if_neg h0, hlk]; rfl
      rw [e1]
      simp only [CppRounded.findFacet, hd, if_neg h0]
      unfold CppRounded.findFacet1 Rounded.findFacet1
      rw [if_neg h0, hT (k := 0) (w := 0) (by omega) (by omega)]
      simp only [noFacet, bind, Except.bind, Nat.cast_zero]
      cases h1 : Rounded.testFacet A c x0 dx 0 0 (-1, 1) with
      | error x => rfl
      | ok a =>
        obtain ⟨r1, k1⟩ := Rounded.testFacet_range hA ⟨zero_le_one, le_rfl⟩ h1
        simp only
        by_cases ha : a.1 = 0
        · rw [if_pos ha, if_pos ha, if_pos r1]
          exact usable_tail ht hg hn (r := a) (.inr (by rw [ha]; simp))
        · rw [if_neg ha, if_neg ha, hT (k := 1) (w := 1) (by omega) (by omega)]
          simp only [Nat.cast_one]
          cases h2 : Rounded.testFacet A c x0 dx 1 1 (-1, 1) with
          | error x => rfl
          | ok b =>
            obtain ⟨r2, k2⟩ := Rounded.testFacet_range hA ⟨zero_le_one, le_rfl⟩ h2
            simp only
            by_cases hb : b.1 = 1
            · rw [if_pos hb, if_pos hb, if_pos r2]
              exact usable_tail ht hg hn (r := b) (.inr (by rw [hb]; simp))
            · rw [if_neg hb, if_neg hb, if_neg (by push Not; exact ⟨r2.2, r2.1⟩)]
              have hb1 : b.1 = -1 := k2.resolve_right hb
              rw [hb1]
              cases pyGet c.normals (-1) with
              | error x => rfl
              | ok n => simp [usable, Except.toOption, pure, Except.pure]
    · have e1 : Rounded.findFacet A M x0 dx ci = Rounded.findFacetMulti A c x0 dx := by
        unfold Rounded.findFacet; rw [if_neg h0, hlk]; rfl
      rw [e1]
      simp only [CppRounded.findFacet, hd, if_neg h0]
      unfold CppRounded.findFacet2 Rounded.findFacetMulti
      rw [if_neg h0, hT (k := 0) (w := 1) (by omega) (by omega)]
      simp only [noFacet, bind, Except.bind, Nat.cast_zero, Nat.cast_one, facetTests, Rounded.testAll]
      cases h1 : Rounded.testFacet A c x0 dx 0 1 (-1, 1) with
      | error x => rfl
      | ok a =>
        obtain ⟨r1, k1⟩ := Rounded.testFacet_range hA ⟨zero_le_one, le_rfl⟩ h1
        simp only
        rw [hT (k := 1) (w := 2) (by omega) (by omega)]
        simp only [Nat.cast_one, Nat.cast_ofNat]
        cases h2 : Rounded.testFacet A c x0 dx 1 2 a with
        | error x => rfl
        | ok b =>
          obtain ⟨r2, k2⟩ := Rounded.testFacet_range hA r1 h2
          simp only
          rw [hT (k := 2) (w := 0) (by omega) (by omega)]
          simp only [Nat.cast_ofNat, Nat.cast_zero]
          cases h3 : Rounded.testFacet A c x0 dx 2 0 b with
          | error x => rfl
          | ok d =>
            obtain ⟨r3, k3⟩ := Rounded.testFacet_range hA r2 h3
            simp only
            rw [if_neg (by push Not; exact ⟨r3.2, r3.1⟩), if_neg (by push Not; exact ⟨r3.2, r3.1⟩)]
            refine usable_tail ht hg hn (r := d) ?_
            simp only at k1
            push_cast
            omega
    · have e1 : Rounded.findFacet A M x0 dx ci = Rounded.findFacetMulti A c x0 dx := by
        unfold Rounded.findFacet; rw [if_neg h0, hlk]; rfl
      rw [e1]
      simp only [CppRounded.findFacet, hd, if_neg h0]
      unfold CppRounded.findFacet3 Rounded.findFacetMulti
      rw [if_neg h0, hT (k := 0) (w := 1) (by omega) (by omega)]
      simp only [noFacet, bind, Except.bind, Nat.cast_zero, Nat.cast_one, facetTests, Rounded.testAll]
      cases h1 : Rounded.testFacet A c x0 dx 0 1 (-1, 1) with
      | error x => rfl
      | ok a =>
        obtain ⟨r1, k1⟩ := Rounded.testFacet_range hA ⟨zero_le_one, le_rfl⟩ h1
        simp only
        rw [hT (k := 1) (w := 2) (by omega) (by omega)]
        simp only [Nat.cast_one, Nat.cast_ofNat]
        cases h2 : Rounded.testFacet A c x0 dx 1 2 a with
        | error x => rfl
        | ok b =>
          obtain ⟨r2, k2⟩ := Rounded.testFacet_range hA r1 h2
          simp only
          rw [hT (k := 2) (w := 3) (by omega) (by omega)]
          simp only [Nat.cast_ofNat]
          cases h3 : Rounded.testFacet A c x0 dx 2 3 b with
          | error x => rfl
          | ok d =>
            obtain ⟨r3, k3⟩ := Rounded.testFacet_range hA r2 h3
            simp only
            rw [hT (k := 3) (w := 0) (by omega) (by omega)]
            simp only [Nat.cast_ofNat, Nat.cast_zero]
            cases h4 : Rounded.testFacet A c x0 dx 3 0 d with
            | error x => rfl
            | ok e =>
              obtain ⟨r4, k4⟩ := Rounded.testFacet_range hA r3 h4
              simp only
              rw [if_neg (by push Not; exact ⟨r4.2, r4.1⟩), if_neg (by push Not; exact ⟨r4.2, r4.1⟩)]
              refine usable_tail ht hg hn (r := e) ?_
              simp only at k1
              push_cast
              omega

/-! ### One crossing -/

/-- Forget the times. -/
def bare (s : Trk K p τ ρ) : Trk K p τ ρ := { s with tStart := 0, rem := 0, events := s.events.map (fun e => (e.1, 0)) }

theorem sameOk_toOption {α : Type} {a b : Except Err α} (h : SameOk a b) : a.toOption = b.toOption := by
  cases a with
  | error x =>
    cases b with
    | error y => rfl
    | ok r => have := (h r).2 rfl; cases this
  | ok r => rw [(h r).1 rfl]

theorem bind_rel {α β γ δ ε ζ : Type} {a : Except Err α} {b : Except Err β} {F : α → γ} {G : β → γ}
    (hab : a.toOption.map F = b.toOption.map G) {f : α → Except Err δ} {k : β → Except Err ε} {F' : δ → ζ} {G' : ε → ζ}
    (hfk : ∀ x y, F x = G y → (f x).toOption.map F' = (k y).toOption.map G') :
    (a.bind f).toOption.map F' = (b.bind k).toOption.map G' := by
  cases a with
  | error x =>
    cases b with
    | error y => rfl
    | ok r => cases hab
  | ok x =>
    cases b with
    | error y => cases hab
    | ok y =>
      simp only [Except.toOption, Option.map_some, Option.some.injEq] at hab
      exact hfk x y hab

theorem bare_iff {s t : Trk K p τ ρ} : bare s = bare t ↔ s.st = t.st ∧ s.part = t.part ∧ s.cell = t.cell ∧ s.last = t.last ∧
    s.count = t.count ∧ s.dxS = t.dxS ∧ s.events.map Prod.fst = t.events.map Prod.fst := by
  have hm : ∀ l m : List (Part K p ρ × K), l.map (fun e => (e.1, (0 : K))) = m.map (fun e => (e.1, (0 : K))) ↔ l.map Prod.fst = m.map Prod.fst := by
    intro l m
    constructor
    · intro e
      have := congrArg (List.map Prod.fst) e
      simpa [List.map_map, Function.comp_def] using this
    · intro e
      have := congrArg (List.map (fun q : Part K p ρ => (q, (0 : K)))) e
      simpa [List.map_map, Function.comp_def] using this
  unfold bare
  simp only [Trk.mk.injEq, hm, true_and]

theorem marked_same {bcC bcP : Int → τ → BCall K g p ρ → Except Err (τ × Part K p ρ)}
    (hbc : ∀ v st c, SameOk (bcC v st c) (bcP v st c)) (value : Int) (f : K) (n : Option (Vec K g)) (mf : Int) {s t : Trk K p τ ρ}
    (h : bare s = bare t) :
    (cppAtMarked bcC value f n mf s).toOption.map bare = (atMarked .charged bcP value f n mf t).toOption.map bare := by
  obtain ⟨h1, h2, h3, h4, h5, h6, h7⟩ := bare_iff.1 h
  have hev : crossEvents .charged t = .ok (if t.part.traj then [(t.part, t.tStart)] else []) := by
    unfold crossEvents
    cases t.part.traj <;> rfl
  have hb := sameOk_toOption (hbc value s.st ⟨s.part, mf, f, n, s.dxS⟩)
  unfold cppAtMarked atMarked
  rw [hev]
  rw [h1, h2, h6] at hb ⊢
  refine bind_rel (F := id) (G := id) (by simpa using hb) ?_
  rintro ⟨u, q⟩ y hy
  simp only [id] at hy
  subst hy
  simp only [pure, Except.pure, Except.toOption, Option.map_some, Option.some.injEq]
  rw [bare_iff]
  refine ⟨rfl, rfl, h3, h4, h5, rfl, ?_⟩
  simp only [List.map_append, h7]
  cases t.part.traj <;> simp

theorem next_same {cc : CppMeshCell K} {c : Cell K g} (hnb : cc.neighbors = c.neighbors) {k : Int} (hk : 0 ≤ k) {s t : Trk K p τ ρ}
    (h : bare s = bare t) :
    (cppNextCell cc k s).toOption.map (fun r => (bare r.1, r.2)) = (nextCell c k t).toOption.map (fun r => (bare r.1, r.2)) := by
  obtain ⟨h1, h2, h3, h4, h5, h6, h7⟩ := bare_iff.1 h
  unfold cppNextCell nextCell
  rw [cGet_py _ hk, hnb]
  cases pyGet c.neighbors k with
  | error x => rfl
  | ok new =>
    simp only [bind, Except.bind, h2]
    split
    · split
      · simp only [pure, Except.pure, Except.toOption, Option.map_some, Option.some.injEq, Prod.mk.injEq, and_true]
        rw [bare_iff]; exact ⟨h1, rfl, h3, h4, h5, h6, h7⟩
      · simp only [pure, Except.pure, Except.toOption, Option.map_some, Option.some.injEq, Prod.mk.injEq, and_true]
        exact h
    · simp only [pure, Except.pure, Except.toOption, Option.map_some, Option.some.injEq, Prod.mk.injEq, and_true]
      rw [bare_iff]; exact ⟨h1, rfl, rfl, h4, h5, h6, h7⟩

theorem cross_same {C : CArith K} {A : Arith K g} (hC : IsCRounding C) (hA : IsRounding A) (hS : SameMachine C A) {cm : CppMesh K} {M : Mesh K g}
    (ht : cm.Twin M) (h : g ≤ p) {L : Layout K p} (hL : L.Right) {bcC bcP : Int → τ → BCall K g p ρ → Except Err (τ × Part K p ρ)}
    (hbc : ∀ v st c, SameOk (bcC v st c) (bcP v st c)) (sc : Scratch K) {s t : Trk K p τ ρ} (hst : bare s = bare t) :
    (CppRounded.crossOnce C h L cm bcC sc s).toOption.map (fun r => (bare r.1, r.2.1)) =
      (Rounded.crossOnce A h M .charged bcP t).toOption.map (fun r => (bare r.1, r.2)) := by
  obtain ⟨h1, h2, h3, h4, h5, h6, h7⟩ := bare_iff.1 hst
  unfold CppRounded.crossOnce Rounded.crossOnce
  have hx : ∀ i : Fin p, L.fill sc t.part.x t.part.x0 i = t.part.x i := fun i => (hL sc t.part.x t.part.x0 i).1
  have hx0 : ∀ i : Fin p, L.fill sc t.part.x t.part.x0 (L.off + i) = t.part.x0 i := fun i => (hL sc t.part.x t.part.x0 i).2.1
  have hsh : Variant.charged.sharesDx = true := rfl
  simp only [h2, h3, h4, h5, hx, hx0, fill_from hL h, hS.fl, hS.mulAdd, hsh, if_true, ht.marker]
  cases hc : M.cell t.cell with
  | none =>
    obtain ⟨x, e1⟩ : ∃ x, cm.lookup t.cell = .error x := by unfold CppMesh.lookup; rw [ht.none_ _ hc]; exact ⟨_, rfl⟩
    obtain ⟨y, e2⟩ : ∃ x, M.lookup t.cell = .error x := by unfold Mesh.lookup; rw [hc]; exact ⟨_, rfl⟩
    rw [e1]
    simp only [bind, Except.bind, e2]
    cases Rounded.findFacet A M (proj h t.part.x0) (proj h fun i => A.fl (t.part.x i - t.part.x0 i)) t.cell with
    | error z => rfl
    | ok r => simp only; split <;> rfl
  | some c =>
    obtain ⟨hr, cc, hcc, tw⟩ := ht.cells _ c hc
    have e1 : cm.lookup t.cell = .ok cc := by unfold CppMesh.lookup; rw [hcc]
    have e2 : M.lookup t.cell = .ok c := by unfold Mesh.lookup; rw [hc]
    have hU := findFacet_same hA hS hc hr.dim hr.verts hr.normals tw.geo (proj h t.part.x0) (proj h fun i => A.fl (t.part.x i - t.part.x0 i))
    simp only [bind, Except.bind, e1, e2]
    cases hu : usable (Rounded.findFacet A M (proj h t.part.x0) (proj h fun i => A.fl (t.part.x i - t.part.x0 i)) t.cell) with
    | none =>
      rw [hu] at hU
      rcases usable_none hU with ⟨x, eC⟩ | ⟨f, n, eC⟩ <;> rcases usable_none hu with ⟨y, eP⟩ | ⟨f', n', eP⟩ <;> rw [eC, eP] <;>
        simp [noFacet, Except.toOption]
    | some r =>
      rw [hu] at hU
      obtain ⟨eC, hk⟩ := usable_some hU
      obtain ⟨eP, -⟩ := usable_some hu
      obtain ⟨k, f, n⟩ := r
      have hk0 : 0 ≤ k := by
        have := (CppRounded.findFacet_range hC eC).2.1
        simp only at hk
        omega
      rw [eC, eP]
      simp only [noFacet] at hk ⊢
      rw [if_neg hk, if_neg hk, cGet_py _ hk0, tw.facets]
      cases pyGet c.facets k with
      | error x => rfl
      | ok mf =>
        simp only
        split
        · rfl
        · have hnext : ∀ (a b : Except Err (Trk K p τ ρ)), a.toOption.map bare = b.toOption.map bare →
              ((a.bind (fun s2 => (cppNextCell cc k s2).bind (fun r => .ok (r.1, r.2, L.fill sc t.part.x t.part.x0)))).toOption.map (fun r => (bare r.1, r.2.1))) =
              ((b.bind (fun s2 => nextCell c k s2)).toOption.map (fun r => (bare r.1, r.2))) := by
            intro a b hab
            refine bind_rel hab (fun x y hxy => ?_)
            have := next_same (s := x) (t := y) tw.neighbors hk0 hxy
            cases h8 : cppNextCell cc k x with
            | error z => rw [h8] at this; rw [← this]; rfl
            | ok z => rw [h8] at this; rw [← this]; rfl
          split
          · exact hnext _ _ (marked_same hbc _ _ _ _ (bare_iff.2 ⟨h1, rfl, rfl, rfl, rfl, rfl, h7⟩))
          · refine hnext (.ok _) (.ok _) ?_
            simp only [Except.toOption, Option.map_some, Option.some.injEq]
            exact bare_iff.2 ⟨h1, rfl, rfl, rfl, rfl, rfl, h7⟩

/-! ### The loop -/

theorem inside_same {C : CArith K} {A : Arith K g} {cm : CppMesh K} {M : Mesh K g} (ht : cm.Twin M) (h : g ≤ p) (hI : SameTest C A h cm M)
    (x : Vec K p) (ci : Int) : (CppRounded.isInside C g cm x ci).toOption = (Rounded.isInside A M (proj h x) ci).toOption := by
  unfold CppRounded.isInside Rounded.isInside CppMesh.lookup Mesh.lookup
  cases hc : M.cell ci with
  | none => rw [ht.none_ _ hc]; rfl
  | some c =>
    obtain ⟨hr, cc, hcc, tw⟩ := ht.cells _ c hc
    rw [hcc]
    simp only [bind, Except.bind]
    rw [hI ci c cc hc hcc x]
    rfl

theorem track_same {C : CArith K} {A : Arith K g} (hC : IsCRounding C) (hA : IsRounding A) (hS : SameMachine C A) {cm : CppMesh K} {M : Mesh K g}
    (ht : cm.Twin M) (h : g ≤ p) (hI : SameTest C A h cm M) {L : Layout K p} (hL : L.Right)
    {bcC bcP : Int → τ → BCall K g p ρ → Except Err (τ × Part K p ρ)} (hbc : ∀ v st c, SameOk (bcC v st c) (bcP v st c)) (n : Nat) :
    ∀ (sc : Scratch K) {s t : Trk K p τ ρ} (_ : bare s = bare t),
      (CppRounded.track C h L cm bcC n sc s).toOption.map (fun r => bare r.1) =
        (Rounded.track A h M .charged bcP n t).toOption.map bare := by
  induction n with
  | zero =>
    intro sc s t hst
    obtain ⟨-, h2, h3, -⟩ := bare_iff.1 hst
    unfold CppRounded.track Rounded.track
    refine bind_rel (F := id) (G := id) (by rw [h2, h3, inside_same ht h hI]) ?_
    rintro x y rfl
    cases x
    · rfl
    · simp only [id, if_true, Except.toOption, Option.map_some, hst]
  | succ n ih =>
    intro sc s t hst
    obtain ⟨-, h2, h3, -⟩ := bare_iff.1 hst
    unfold CppRounded.track Rounded.track
    refine bind_rel (F := id) (G := id) (by rw [h2, h3, inside_same ht h hI]) ?_
    rintro x y rfl
    cases x
    · simp only [id, Bool.false_eq_true, if_false]
      refine bind_rel (cross_same hC hA hS ht h hL hbc sc hst) ?_
      rintro ⟨s', brk, sc'⟩ ⟨t', brk'⟩ hxy
      simp only [Prod.mk.injEq] at hxy
      obtain ⟨hb, rfl⟩ := hxy
      cases brk
      · exact ih sc' hb
      · simp only [if_true, Except.toOption, Option.map_some, hb]
    · simp only [id, if_true, Except.toOption, Option.map_some, hst]

end RoundedTwin

open RoundedTwin in
/-- **C135.** One step of a charged particle in machine arithmetic, in Python and in compiled code, with the same rounding, the same
scalar products and the same test for a point in a cell, and no fused operations: one succeeds exactly if the other does, and then the
particles (position, start point, velocity, cell, flags, crossings), the user states, the move vectors and the particles in the recorded
crossings are the same to the last bit.  Only the times in the recorded crossings are left open. -/
theorem C135_same_bits_partial {C : CArith K} {A : Arith K g} (hC : IsCRounding C) (hA : IsRounding A) (hS : SameMachine C A) {cm : CppMesh K}
    {M : Mesh K g} (ht : cm.Twin M) (h : g ≤ p) (hI : SameTest C A h cm M) {L : Layout K p} (hL : L.Right)
    {bcC bcP : Int → τ → BCall K g p ρ → Except Err (τ × Part K p ρ)} (hbc : ∀ v st c, SameOk (bcC v st c) (bcP v st c)) (n : Nat)
    (time dt qmdt : K) (E : Part K p ρ → Option (Vec K p)) (st : τ × Vec K p) (sc : Scratch K) (q : Part K p ρ) :
    (CppRounded.move C h L cm bcC n time dt qmdt E (st, sc) q).toOption.map (fun r => (r.1.1, r.2.1, r.2.2.map Prod.fst)) =
      (Rounded.moveCharged A h M .charged bcP n time dt qmdt false E st q).toOption.map (fun r => (r.1, r.2.1, r.2.2.map Prod.fst)) := by
  unfold CppRounded.move Rounded.moveCharged
  have hacc : CppRounded.accelerate C qmdt (E q) q = Rounded.accelerate A qmdt (E q) q := by
    unfold CppRounded.accelerate Rounded.accelerate
    cases E q with
    | none => rfl
    | some e => simp only [hS.mulAdd]
  have hmv : CppRounded.moveBy C dt (Rounded.accelerate A qmdt (E q) q) = Rounded.moveBy A dt (Rounded.accelerate A qmdt (E q) q) := by
    unfold CppRounded.moveBy Rounded.moveBy
    simp only [hS.mulAdd]
  simp only [hacc, hmv, Bool.false_eq_true, if_false]
  refine bind_rel (RoundedTwin.track_same hC hA hS ht h hI hL hbc n sc (s := CppRounded.startTrk C time dt st.1 st.2 _)
    (t := Rounded.startTrk A time dt st.1 st.2 _) ?_) ?_
  · unfold CppRounded.startTrk Rounded.startTrk
    rw [bare_iff]
    exact ⟨rfl, rfl, rfl, rfl, rfl, rfl, rfl⟩
  · rintro ⟨s, sc'⟩ t hst
    obtain ⟨h1, h2, h3, h4, h5, h6, h7⟩ := bare_iff.1 hst
    simp only at h1 h2 h5 h6 h7
    simp only [pure, Except.pure, Except.toOption, Option.map_some, h1, h2, h5, h6, h7]

theorem RoundedTwin.plain_sim {C : CArith K} {A : Arith K g} (hC : IsCRounding C) (hA : IsRounding A) (hS : SameMachine C A) {cm : CppMesh K}
    {M : Mesh K g} (ht : cm.Twin M) (h : g ≤ p) (hI : SameTest C A h cm M) {L : Layout K p} (hL : L.Right)
    {bcC bcP : Int → τ → BCall K g p ρ → Except Err (τ × Part K p ρ)} (hbc : ∀ v st c, SameOk (bcC v st c) (bcP v st c)) (n : Nat)
    (time dt qmdt : K) (E : Part K p ρ → Option (Vec K p)) :
    ∀ (st1 : (τ × Vec K p) × Scratch K) (st2 : τ × Vec K p) (i o : Int) (ic : Bool) (x : Part K p ρ), st1.1 = st2 →
      Spec.Sim (fun a b => a.1 = b) (plainAdv (CppRounded.move C h L cm bcC n time dt qmdt E) st1 i o ic x)
        (plainAdv (Rounded.moveCharged A h M .charged bcP n time dt qmdt false E) st2 i o ic x) := by
  rintro ⟨st1, sc1⟩ st2 i o ic x rfl
  have k := C135_same_bits_partial hC hA hS ht h hI hL hbc n time dt qmdt E st1 sc1 x
  unfold plainAdv
  cases e1 : CppRounded.move C h L cm bcC n time dt qmdt E (st1, sc1) x with
  | error y =>
    rw [e1] at k
    cases e2 : Rounded.moveCharged A h M .charged bcP n time dt qmdt false E st1 x with
    | error z => exact .err _ _
    | ok r => rw [e2] at k; cases k
  | ok r =>
    rw [e1] at k
    cases e2 : Rounded.moveCharged A h M .charged bcP n time dt qmdt false E st1 x with
    | error z => rw [e2] at k; cases k
    | ok r' =>
      rw [e2] at k
      obtain ⟨⟨a, b⟩, q, evs⟩ := r
      obtain ⟨a', q', evs'⟩ := r'
      simp only [Except.toOption, Option.map_some, Option.some.injEq, Prod.mk.injEq] at k
      obtain ⟨rfl, rfl, -⟩ := k
      exact Sim.ok (R := fun (a : (τ × Vec K p) × Scratch K) (b : τ × Vec K p) => a.1 = b) (st1 := (a, b)) (st2 := a) rfl (q, !q.del)

/-- **C135 (a time step of a charged species).** Both containers hold the particles `xs`, both sides start with the same user state,
and no trajectory points are recorded.  Then either both fail, or afterwards both hold the same particles in the same order and the same
user state, to the last bit. -/
theorem C135_species {C : CArith K} {A : Arith K g} (hC : IsCRounding C) (hA : IsRounding A) (hS : SameMachine C A) {cm : CppMesh K}
    {M : Mesh K g} (ht : cm.Twin M) (h : g ≤ p) (hI : SameTest C A h cm M) {L : Layout K p} (hL : L.Right)
    {bcC bcP : Int → τ → BCall K g p ρ → Except Err (τ × Part K p ρ)} (hbc : ∀ v st c, SameOk (bcC v st c) (bcP v st c)) (n : Nat)
    (time dt qmdt : K) (E : Part K p ρ → Option (Vec K p)) {s : CSAP (Part K p ρ)} (hs : Used s) {sp : SAP (Part K p ρ)}
    (hp : Reachable sp) {xs : List (Part K p ρ)} (hx : CStores s xs) (hxp : Stores sp xs) (hne : xs ≠ [])
    (hbig : xs.length < 4294967296) (st : τ × Vec K p) (sc : Scratch K) :
    let compiled := cppPass (fun _ => false) (plainAdv (CppRounded.move C h L cm bcC n time dt qmdt E)) s (st, sc)
    let python := Mover.meshPass (plainAdv (Rounded.moveCharged A h M .charged bcP n time dt qmdt false E)) sp st
    (∃ e1 e2, compiled = .error e1 ∧ python = .error e2) ∨
    ∃ s' sp' st' sc' ys, compiled = .ok (s', (st', sc')) ∧ python = .ok (sp', st') ∧ CStores s' ys ∧ Stores sp' ys ∧ Used s' := by
  intro compiled python
  have sim := pass_sim (R := fun (a : (τ × Vec K p) × Scratch K) (b : τ × Vec K p) => a.1 = b) (skip_sim
    (RoundedTwin.plain_sim hC hA hS ht h hI hL hbc n time dt qmdt E) (fun _ => false)) xs (st, sc) st 0 0 rfl
  have k1 := C65_pass_refines_list (fun _ => false) (plainAdv (CppRounded.move C h L cm bcC n time dt qmdt E)) hs hx hne hbig (st, sc)
  have hnp : sp.getNumberOfItems ≠ 0 := by
    rw [hxp.1]; have := List.length_pos_iff.2 hne; omega
  have k2 := C11_pass_refines_list (plainAdv (Rounded.moveCharged A h M .charged bcP n time dt qmdt false E)) hp hnp xs hxp.1.symm
    hxp.2 st
  have hsk : ∀ adv : Adv (τ × Vec K p) (Part K p ρ), skipping (fun _ => false) adv = adv := by
    intro adv; funext st i o ic x; simp [skipping]
  rw [hsk] at sim
  rcases sim.cases with ⟨e1, e2, h1, h2⟩ | ⟨⟨st1, sc1⟩, st2, ys, h1, h2, hR⟩
  · rw [h1] at k1
    rw [h2] at k2
    exact .inl ⟨e1, e2, k1, k2⟩
  · rw [h1] at k1
    rw [h2] at k2
    simp only at hR
    subst hR
    obtain ⟨s', a1, a2, a3⟩ := k1
    obtain ⟨sp', b1, b2, b3, -⟩ := k2
    exact .inr ⟨s', sp', st1, sc1, ys, a1, b1, a2, ⟨b2, b3⟩, a3⟩

/-! ### Concrete cases -/

theorem coarse_same : SameMachine coarseC coarse := ⟨rfl, rfl, fun _ _ _ => rfl⟩

theorem coarse_test {cm : CppMesh ℚ} {M : Mesh ℚ 1} (ht : cm.Twin M) : SameTest coarseC coarse (le_refl 1) cm M := by
  intro ci c cc hc hcc x
  have := isInside_same ht (le_refl 1) x ci (c.contains (proj (le_refl 1) x))
  unfold CppMesh.isInside Mesh.isInside CppMesh.lookup Mesh.lookup at this
  rw [hc, hcc] at this
  exact this.2 rfl

/-- A step with a rounding error (the exact position is 3/4), a reflection and a recorded crossing, in both codes. -/
example : (cppStep coarseC).toOption.map (fun r => (r.1.1, r.2.1, r.2.2.map Prod.fst)) =
    (Rounded.moveCharged coarse (le_refl 1) demoLine .charged demoBC 10 5 1 1 false (fun _ => some ![-1]) ((), ![0])
      (demoPart (1/2) (-1/4) 0 true)).toOption.map (fun r => (r.1, r.2.1, r.2.2.map Prod.fst)) ∧
    ((cppStep coarseC).map (fun r => r.2.2.length)).toOption = some 1 :=
  ⟨C135_same_bits_partial coarseC_rounding coarse_rounding coarse_same demoLineCpp_twin (le_refl 1) (coarse_test demoLineCpp_twin)
    C66_layouts.1 (fun _ _ _ _ => Iff.rfl) 10 5 1 1 _ _ _ _, by decide +kernel⟩

/-- Any particles on the line of three cells, in containers of both codes. -/
example (xs : List (Part ℚ 1 Nat)) (hne : xs ≠ []) (hbig : xs.length < 4294967296) (s : CSAP (Part ℚ 1 Nat)) (hs : Used s) (hx : CStores s xs)
    (sp : SAP (Part ℚ 1 Nat)) (hp : Reachable sp) (hxp : Stores sp xs) :=
  C135_species coarseC_rounding coarse_rounding coarse_same demoLineCpp_twin (le_refl 1) (coarse_test demoLineCpp_twin) C66_layouts.1
    (fun _ _ _ _ => Iff.rfl : ∀ v st c, SameOk (demoBC v st c) (demoBC v st c)) 10 5 1 1 (fun _ => some ![-1]) hs hp hx hxp hne hbig
    ((), ![0]) (fun _ => 99)

/-- C135 is false for the recorded times: Python subtracts the time spent from the time left, compiled code multiplies the time left
by the remaining fraction, and after the first crossing the two may be rounded differently. -/
theorem C135_false_times : ∃ (C : CArith ℚ) (A : Arith ℚ 1) (cm : CppMesh ℚ) (M : Mesh ℚ 1) (q : Part ℚ 1 Nat) (time dt a b c : ℚ),
    IsCRounding C ∧ IsRounding A ∧ SameMachine C A ∧ cm.Twin M ∧ SameTest C A (le_refl 1) cm M ∧
    (∀ y ∈ [time, dt, q.x 0, q.u 0], A.fl y = y) ∧
    (CppRounded.move C (le_refl 1) layoutX cm demoBC 10 time dt 1 (fun _ => none) (((), ![0]), fun _ => 99) q).toOption.map
      (fun r => r.2.2.map Prod.snd) = some [a, b] ∧
    (Rounded.moveCharged A (le_refl 1) M .charged demoBC 10 time dt 1 false (fun _ => none) ((), ![0]) q).toOption.map
      (fun r => r.2.2.map Prod.snd) = some [a, c] ∧ b ≠ c :=
  ⟨coarseC, coarse, lineCpp (fun i => (i : ℚ)) 1 (fun i => if i = 0 then 2 else 1), lineMesh (fun i => (i : ℚ)) 1 (fun i => if i = 0 then 2 else 1),
    demoPart (1/2) 2 0 true, 3, 3/2, 2, 11/4, 5/2, coarseC_rounding, coarse_rounding, coarse_same,
    C66_interval_mesh (fun i _ => by push_cast; linarith), coarse_test (C66_interval_mesh (fun i _ => by push_cast; linarith)),
    by decide +kernel, by decide +kernel, by decide +kernel, by norm_num⟩

/-- C135 is false for fused operations: a compiler that fuses multiplication and addition gives other positions. -/
theorem C135_false_fused : ∃ (C : CArith ℚ) (A : Arith ℚ 1) (cm : CppMesh ℚ) (M : Mesh ℚ 1) (q : Part ℚ 1 Nat) (time dt a b : ℚ),
    IsCRounding C ∧ IsRounding A ∧ C.fl = A.fl ∧ C.dot 1 = A.dot ∧ cm.Twin M ∧
    (∀ y ∈ [time, dt, q.x 0, q.u 0], A.fl y = y) ∧ a ≠ b ∧
    (CppRounded.move C (le_refl 1) layoutX cm demoBC 10 time dt 1 (fun _ => none) (((), ![0]), fun _ => 99) q).toOption.map
      (fun r => r.2.1.x 0) = some a ∧
    (Rounded.moveCharged A (le_refl 1) M .charged demoBC 10 time dt 1 false (fun _ => none) ((), ![0]) q).toOption.map
      (fun r => r.2.1.x 0) = some b :=
  ⟨coarseF, coarse, lineCpp (fun i => 10 * (i : ℚ)) 1 (fun _ => 2), lineMesh (fun i => 10 * (i : ℚ)) 1 (fun _ => 2),
    demoPart 4 (3/4) 0 true, 3, 1/2, 4, 5, coarseF_rounding, coarse_rounding, rfl, rfl,
    C66_interval_mesh (fun i _ => by push_cast; linarith), by decide +kernel, by norm_num, by decide +kernel, by decide +kernel⟩

end Dt
