import Verif.Spec.Similar
import Verif.Props.CppPlasma
import Verif.Props.Superpose

/-!
# Units, origin and direction of the axes do not matter, on any mesh (C130)
-/

set_option linter.unusedSectionVars false

namespace Dt
open Spec Poisson Topology TimeLoop
variable {K V : Type} [Field K] [LinearOrder K] [IsStrictOrderedRing K] {g : Nat} {ρ τ : Type}

/-! ### Vectors -/

section
variable {F : Frame K g}

theorem dot_smul_l {d : Nat} (a : K) (v w : Vec K d) : dot (a • v) w = a * dot v w := by
  simp only [dot, Pi.smul_apply, smul_eq_mul, Finset.mul_sum, mul_assoc]

theorem dot_smul_r {d : Nat} (a : K) (v w : Vec K d) : dot v (a • w) = a * dot v w := by
  simp only [dot, Pi.smul_apply, smul_eq_mul, Finset.mul_sum]
  exact Finset.sum_congr rfl fun i _ => by ring

theorem turn_sub (hF : F.Valid) (v w : Vec K g) : F.turn (v - w) = F.turn v - F.turn w := by
  have : v - w = v + (-1 : K) • w := by rw [neg_one_smul, sub_eq_add_neg]
  rw [this, hF.add, hF.smul, neg_one_smul, sub_eq_add_neg]

theorem turn_neg (hF : F.Valid) (v : Vec K g) : F.turn (-v) = -F.turn v := by
  have : -v = (-1 : K) • v := by rw [neg_one_smul]
  rw [this, hF.smul, neg_one_smul]

theorem turn_sum (hF : F.Valid) {ι : Type} (s : Finset ι) (f : ι → Vec K g) : F.turn (∑ i ∈ s, f i) = ∑ i ∈ s, F.turn (f i) := by
  classical
  have h0 : F.turn 0 = 0 := by
    have := hF.smul 0 0
    simpa using this
  induction s using Finset.induction_on with
  | empty => simpa using h0
  | insert a s ha ih => rw [Finset.sum_insert ha, Finset.sum_insert ha, hF.add, ih]

theorem pos_sub (hF : F.Valid) (x y : Vec K g) : F.pos x - F.pos y = F.move (x - y) := by
  unfold Frame.pos Frame.move
  rw [turn_sub hF, smul_sub]
  abel

theorem pos_add (hF : F.Valid) (x v : Vec K g) : F.pos (x + v) = F.pos x + F.move v := by
  unfold Frame.pos Frame.move
  rw [hF.add, smul_add]
  abel

theorem move_smul (hF : F.Valid) (a : K) (v : Vec K g) : F.move (a • v) = a • F.move v := by
  unfold Frame.move
  rw [hF.smul, smul_comm]

theorem dot_turn_move (hF : F.Valid) (n v : Vec K g) : dot (F.turn n) (F.move v) = F.len * dot n v := by
  unfold Frame.move
  rw [dot_smul_r, hF.dot]

theorem dot_move (hF : F.Valid) (v : Vec K g) : dot (F.move v) (F.move v) = 0 ↔ dot v v = 0 := by
  unfold Frame.move
  rw [dot_smul_r, dot_smul_l, hF.dot, ← mul_assoc, mul_eq_zero, or_iff_right (mul_ne_zero hF.len.ne' hF.len.ne')]

/-! ### Finding facets -/

/-- A cell in other coordinates. -/
def Spec.Frame.cell (F : Frame K g) (c : Cell K g) : Cell K g := ⟨c.verts.map F.pos, c.normals.map F.turn, c.facets, c.neighbors⟩

/-- A mesh in other coordinates. -/
structure Spec.Turned (F : Frame K g) (M M' : Mesh K g) : Prop where
  cell : ∀ i, M'.cell i = (M.cell i).map F.cell
  marker : M'.marker = M.marker

theorem pyGet_map {α β : Type} (f : α → β) (l : List α) (i : Int) : pyGet (l.map f) i = (pyGet l i).map f := by
  unfold pyGet
  simp only [List.length_map, List.getElem?_map]
  have key : ∀ o : Option α, orIndexErr (o.map f) = (orIndexErr o).map f := fun o => by cases o <;> rfl
  split
  · exact key _
  · split
    · exact key _
    · rfl

theorem turned_test (hF : F.Valid) (c : Cell K g) (x0 dx : Vec K g) (k w : Int) (acc : Int × K) :
    testFacet (F.cell c) (F.pos x0) (F.move dx) k w acc = testFacet c x0 dx k w acc := by
  unfold testFacet Frame.cell
  simp only [pyGet_map]
  cases pyGet c.normals k with
  | error e => rfl
  | ok n =>
    show (if dot (F.turn n) (F.move dx) > 0 then _ else _) = if dot n dx > 0 then _ else _
    rw [dot_turn_move hF]
    by_cases h : 0 < dot n dx
    · rw [if_pos h, if_pos (mul_pos hF.len h)]
      cases pyGet c.verts w with
      | error e => rfl
      | ok v =>
        show (if (if dot (F.turn n) (F.pos v - F.pos x0) < 0 then _ else _) < _ then _ else _) = if (if dot n (v - x0) < 0 then _ else _) < _ then _ else _
        rw [pos_sub hF, dot_turn_move hF]
        have e1 : (F.len * dot n (v - x0) < 0) ↔ dot n (v - x0) < 0 := by
          rw [mul_neg_iff]
          constructor
          · rintro (h | h)
            · exact h.2
            · exact absurd h.1 (not_lt.2 hF.len.le)
          · exact fun h => .inl ⟨hF.len, h⟩
        have e2 : (if F.len * dot n (v - x0) < 0 then -(F.len * dot n (v - x0)) else F.len * dot n (v - x0)) =
            F.len * (if dot n (v - x0) < 0 then -dot n (v - x0) else dot n (v - x0)) := by
          simp only [e1]
          split <;> ring
        rw [e2]
        generalize (if dot n (v - x0) < 0 then -dot n (v - x0) else dot n (v - x0)) = d
        have e3 : (F.len * d < acc.2 * (F.len * dot n dx)) ↔ d < acc.2 * dot n dx := by
          rw [show acc.2 * (F.len * dot n dx) = F.len * (acc.2 * dot n dx) by ring, mul_lt_mul_iff_right₀ hF.len]
        simp only [e3, mul_div_mul_left _ _ hF.len.ne']
    · rw [if_neg h, if_neg]
      exact fun h' => h ((mul_pos_iff_of_pos_left hF.len).1 h')

theorem turned_tests (hF : F.Valid) (c : Cell K g) (x0 dx : Vec K g) (l : List (Int × Int)) (acc : Int × K) :
    testAll (F.cell c) (F.pos x0) (F.move dx) l acc = testAll c x0 dx l acc := by
  induction l generalizing acc with
  | nil => rfl
  | cons a l ih =>
    obtain ⟨k, w⟩ := a
    unfold testAll
    rw [turned_test hF]
    cases testFacet c x0 dx k w acc with
    | error e => rfl
    | ok a => exact ih a

theorem turned_multi (hF : F.Valid) (c : Cell K g) (x0 dx : Vec K g) :
    findFacetMulti (F.cell c) (F.pos x0) (F.move dx) = (findFacetMulti c x0 dx).map (fun r => (r.1, r.2.1, r.2.2.map F.turn)) := by
  unfold findFacetMulti
  simp only [dot_move hF, turned_tests hF]
  split
  · rfl
  · cases testAll c x0 dx (facetTests g) (noFacet, 1) with
    | error e => rfl
    | ok a =>
      show (if a.2 > 1 ∨ a.2 < 0 then _ else _) = Except.map _ (if a.2 > 1 ∨ a.2 < 0 then _ else _)
      split
      · rfl
      · show (do let n ← pyGet (c.normals.map F.turn) a.1; _) = _
        rw [pyGet_map]
        cases pyGet c.normals a.1 <;> rfl

theorem turned_one (hF : F.Valid) (c : Cell K g) (x0 dx : Vec K g) :
    findFacet1 (F.cell c) (F.pos x0) (F.move dx) = (findFacet1 c x0 dx).map (fun r => (r.1, r.2.1, r.2.2.map F.turn)) := by
  have key : ∀ (a : Int × K), (do let n ← pyGet (F.cell c).normals a.1; (Except.ok (a.1, a.2, some n) : Except Err (Int × K × Option (Vec K g)))) =
      Except.map (fun r : Int × K × Option (Vec K g) => (r.1, r.2.1, r.2.2.map F.turn))
        (do let n ← pyGet c.normals a.1; (Except.ok (a.1, a.2, some n) : Except Err (Int × K × Option (Vec K g)))) := by
    intro a
    show (do let n ← pyGet (c.normals.map F.turn) a.1; _) = _
    rw [pyGet_map]
    cases pyGet c.normals a.1 <;> rfl
  unfold findFacet1
  simp only [dot_move hF, turned_test hF]
  split
  · rfl
  · cases testFacet c x0 dx 0 0 (noFacet, 1) with
    | error e => rfl
    | ok a =>
      show (if a.1 = 0 then _ else _) = Except.map _ (if a.1 = 0 then _ else _)
      split
      · exact key a
      · cases testFacet c x0 dx 1 1 (noFacet, 1) with
        | error e => rfl
        | ok a =>
          show (if a.1 = 1 then _ else _) = Except.map _ (if a.1 = 1 then _ else _)
          split
          · exact key a
          · show (if a.2 > 1 ∨ a.2 < 0 then _ else _) = Except.map _ (if a.2 > 1 ∨ a.2 < 0 then _ else _)
            split
            · rfl
            · exact key a

variable {M M' : Mesh K g}

theorem turned_lookup (hM : Turned F M M') (i : Int) : M'.lookup i = (M.lookup i).map F.cell := by
  unfold Mesh.lookup
  rw [hM.cell]
  cases M.cell i <;> rfl

theorem turned_find (hF : F.Valid) (hM : Turned F M M') (x0 dx : Vec K g) (ci : Int) :
    M'.findFacet (F.pos x0) (F.move dx) ci = (M.findFacet x0 dx ci).map (fun r => (r.1, r.2.1, r.2.2.map F.turn)) := by
  unfold Mesh.findFacet
  simp only [dot_move hF, turned_lookup hM]
  split
  · rfl
  · cases M.lookup ci with
    | error e => rfl
    | ok c =>
      show (match g with | 3 => _ | 2 => _ | _ => _) = Except.map _ (match g with | 3 => _ | 2 => _ | _ => _)
      split
      · exact turned_multi hF c x0 dx
      · exact turned_multi hF c x0 dx
      · exact turned_one hF c x0 dx

theorem turned_inside (hF : F.Valid) (hM : Turned F M M') (x : Vec K g) (ci : Int) : M'.isInside (F.pos x) ci = M.isInside x ci := by
  unfold Mesh.isInside
  rw [turned_lookup hM]
  cases M.lookup ci with
  | error e => rfl
  | ok c =>
    show Except.ok _ = Except.ok _
    congr 1
    unfold Cell.contains Frame.cell
    refine List.all_congr rfl fun kw => ?_
    simp only [List.getElem?_map]
    cases c.normals[kw.1.toNat]? with
    | none => rfl
    | some n =>
      cases c.verts[kw.2.toNat]? with
      | none => rfl
      | some v =>
        simp only [Option.map_some]
        rw [pos_sub hF, dot_turn_move hF]
        congr 1
        rw [eq_iff_iff, mul_nonpos_iff]
        constructor
        · rintro (h | h)
          · exact h.2
          · exact absurd h.1 (not_le.2 hF.len)
        · exact fun h => .inl ⟨hF.len.le, h⟩

/-! ### The mover -/

/-- The loop variables of the mover in other coordinates. -/
def Spec.Frame.trk (F : Frame K g) (s : Trk K g τ ρ) : Trk K g τ ρ :=
  ⟨s.st, F.part s.part, s.cell, s.last, s.count, F.time * s.tStart, F.time * s.rem, F.move s.dxS, s.events.map (fun e => (F.part e.1, F.time * e.2))⟩

variable {bc bc' : Int → τ → BCall K g g ρ → Except Err (τ × Part K g ρ)} {v : Variant}

theorem turned_cross (hF : F.Valid) (hM : Turned F M M') (hbc : SameBC F bc bc') (s : Trk K g τ ρ) :
    crossOnce (le_refl g) M' v bc' (F.trk s) = (crossOnce (le_refl g) M v bc s).map (fun r => (F.trk r.1, r.2)) := by
  unfold crossOnce
  have e1 : (F.trk s).part.x - (F.trk s).part.x0 = F.move (s.part.x - s.part.x0) := pos_sub hF _ _
  have e2 : (if v.sharesDx = true then F.move (s.part.x - s.part.x0) else (F.trk s).dxS) =
      F.move (if v.sharesDx = true then s.part.x - s.part.x0 else s.dxS) := by split <;> rfl
  have e3 : proj (le_refl g) (F.trk s).part.x0 = F.pos s.part.x0 := rfl
  have e4 : (F.trk s).cell = s.cell := rfl
  have e5 : (F.trk s).last = s.last := rfl
  simp only [e1, e2, e3, e4, e5, proj_self, turned_find hF hM, turned_lookup hM]
  cases M.findFacet s.part.x0 (s.part.x - s.part.x0) s.cell with
  | error e => rfl
  | ok r =>
    obtain ⟨cF, f, n⟩ := r
    show (if cF = noFacet then _ else _) = Except.map _ (if cF = noFacet then _ else _)
    split
    · rfl
    · cases M.lookup s.cell with
      | error e => rfl
      | ok c =>
        show (do let m ← pyGet c.facets cF; _) = Except.map _ (do let m ← pyGet c.facets cF; _)
        cases pyGet c.facets cF with
        | error e => rfl
        | ok m =>
          show (if m = s.last then _ else _) = Except.map _ (if m = s.last then _ else _)
          split
          · rfl
          · have next : ∀ s2 : Trk K g τ ρ, nextCell (F.cell c) cF (F.trk s2) = (nextCell c cF s2).map (fun r => (F.trk r.1, r.2)) := by
              intro s2
              unfold nextCell
              show (do let new ← pyGet c.neighbors cF; _) = Except.map _ (do let new ← pyGet c.neighbors cF; _)
              cases pyGet c.neighbors cF with
              | error e => rfl
              | ok new =>
                show (if new = noCell then (if s2.part.del = true then _ else _) else _) =
                  Except.map _ (if new = noCell then (if s2.part.del = true then _ else _) else _)
                split
                · split <;> rfl
                · rfl
            let dxS := if v.sharesDx = true then s.part.x - s.part.x0 else s.dxS
            let s1 : Trk K g τ ρ := { s with
              count := s.count + 1, tStart := s.tStart + f * s.rem, rem := s.rem - f * s.rem
              part := { s.part with x0 := s.part.x0 + f • (s.part.x - s.part.x0) }, last := m, dxS := dxS }
            have h1 : ({ F.trk s with
              count := s.count + 1, tStart := F.time * s.tStart + f * (F.time * s.rem), rem := F.time * s.rem - f * (F.time * s.rem)
              part := { F.part s.part with x0 := F.pos s.part.x0 + f • F.move (s.part.x - s.part.x0) }, last := m, dxS := F.move dxS } : Trk K g τ ρ) = F.trk s1 := by
              have a1 : F.pos s.part.x0 + f • F.move (s.part.x - s.part.x0) = F.pos (s.part.x0 + f • (s.part.x - s.part.x0)) := by
                rw [pos_add hF, move_smul hF]
              have a2 : F.time * s.tStart + f * (F.time * s.rem) = F.time * (s.tStart + f * s.rem) := by ring
              have a3 : F.time * s.rem - f * (F.time * s.rem) = F.time * (s.rem - f * s.rem) := by ring
              rw [a1, a2, a3]
              rfl
            have h2 : atMarked v bc' (M.marker m) f (n.map F.turn) m (F.trk s1) = (atMarked v bc (M.marker m) f n m s1).map F.trk := by
              unfold atMarked
              have h3 : crossEvents v (F.trk s1) = (crossEvents v s1).map (fun l => l.map (fun e => (F.part e.1, F.time * e.2))) := by
                unfold crossEvents
                show (if s1.part.traj = true then _ else _) = Except.map _ (if s1.part.traj = true then _ else _)
                split
                · cases v.datum <;> rfl
                · rfl
              rw [h3]
              cases crossEvents v s1 with
              | error e => rfl
              | ok evs =>
                have h4 := hbc (M.marker m) s1.st ⟨s1.part, m, f, n, s1.dxS⟩
                show (do let r ← bc' (M.marker m) s1.st ⟨F.part s1.part, m, f, n.map F.turn, F.move s1.dxS⟩; _) =
                  Except.map _ (do let r ← bc (M.marker m) s1.st ⟨s1.part, m, f, n, s1.dxS⟩; _)
                rw [h4]
                cases bc (M.marker m) s1.st ⟨s1.part, m, f, n, s1.dxS⟩ with
                | error e => rfl
                | ok r =>
                  show Except.ok _ = Except.ok _
                  unfold Frame.trk
                  simp only [List.map_append]
            rw [hM.marker]
            by_cases hm : M.marker m ≠ 0
            · refine Eq.trans (if_pos hm) (Eq.trans ?_ (congrArg _ (if_pos hm).symm))
              refine Eq.trans (b := (do let s2 ← atMarked v bc' (M.marker m) f (n.map F.turn) m (F.trk s1); nextCell (F.cell c) cF s2)) (by rw [← h1]; rfl) ?_
              rw [h2]
              show _ = Except.map (fun r => (F.trk r.1, r.2)) (do let s2 ← atMarked v bc (M.marker m) f n m s1; nextCell c cF s2)
              cases atMarked v bc (M.marker m) f n m s1 with
              | error e => rfl
              | ok s2 => exact next s2
            · refine Eq.trans (if_neg hm) (Eq.trans ?_ (congrArg _ (if_neg hm).symm))
              refine Eq.trans (b := nextCell (F.cell c) cF (F.trk s1)) (by rw [← h1]; rfl) (next s1)

theorem turned_track (hF : F.Valid) (hM : Turned F M M') (hbc : SameBC F bc bc') (left : Nat) (s : Trk K g τ ρ) :
    track (le_refl g) M' v bc' left (F.trk s) = (track (le_refl g) M v bc left s).map F.trk := by
  induction left generalizing s with
  | zero =>
    unfold track
    show (do let inside ← M'.isInside (F.pos s.part.x) s.cell; _) = Except.map _ (do let inside ← M.isInside s.part.x s.cell; _)
    rw [turned_inside hF hM]
    cases M.isInside s.part.x s.cell with
    | error e => rfl
    | ok b => cases b <;> rfl
  | succ n ih =>
    unfold track
    show (do let inside ← M'.isInside (F.pos s.part.x) s.cell; _) = Except.map _ (do let inside ← M.isInside s.part.x s.cell; _)
    rw [turned_inside hF hM]
    cases M.isInside s.part.x s.cell with
    | error e => rfl
    | ok b =>
      cases b with
      | true => rfl
      | false =>
        show (do let r ← crossOnce (le_refl g) M' v bc' (F.trk s); _) = Except.map _ (do let r ← crossOnce (le_refl g) M v bc s; _)
        rw [turned_cross hF hM hbc]
        cases crossOnce (le_refl g) M v bc s with
        | error e => rfl
        | ok r =>
          obtain ⟨s', b⟩ := r
          cases b with
          | true => rfl
          | false => exact ih s'

/-- A field, per charge. -/
def Spec.Frame.field (F : Frame K g) (e : Vec K g) : Vec K g := (F.mass * F.len / (F.time ^ 2 * F.charge)) • F.turn e

/-- C130.  One particle moves alike in other coordinates. -/
theorem turned_move (hF : F.Valid) (hM : Turned F M M') (hbc : SameBC F bc bc') (maxCross : Nat) (time dt qom : K)
    {E E' : Part K g ρ → Option (Vec K g)} (q : Part K g ρ) (hE : E' (F.part q) = (E q).map F.field) (st : τ × Vec K g) :
    moveCharged (le_refl g) M' v bc' maxCross (F.time * time) (F.time * dt) (F.ratio qom * (F.time * dt)) false E' (st.1, F.move st.2) (F.part q) =
      (moveCharged (le_refl g) M v bc maxCross time dt (qom * dt) false E st q).map
        (fun r => ((r.1.1, F.move r.1.2), F.part r.2.1, r.2.2.map (fun e => (F.part e.1, F.time * e.2)))) := by
  have p1 := hF.len.ne'
  have p2 := hF.time.ne'
  have p3 := hF.mass.ne'
  have p4 := hF.charge.ne'
  unfold moveCharged
  have h1 : accelerate (F.ratio qom * (F.time * dt)) (E' (F.part q)) (F.part q) = F.part (accelerate (qom * dt) (E q) q) := by
    rw [hE]
    cases E q with
    | none => rfl
    | some e =>
      unfold accelerate Frame.part Frame.field Frame.vel Frame.ratio
      simp only [Option.map_some, Part.mk.injEq, true_and, and_true]
      rw [hF.add, hF.smul, smul_add, smul_smul, smul_smul]
      congr 2
      field_simp
  have h2 : ∀ q : Part K g ρ, moveBy (F.time * dt) (F.part q) = F.part (moveBy dt q) := by
    intro q
    unfold moveBy Frame.part
    simp only [Part.mk.injEq, true_and, and_true]
    rw [pos_add hF]
    congr 1
    unfold Frame.vel Frame.move
    rw [hF.smul, smul_smul, smul_smul]
    congr 1
    field_simp
  have h3 : ∀ q : Part K g ρ, startTrk (F.time * time) (F.time * dt) st.1 (F.move st.2) (F.part q) = F.trk (startTrk time dt st.1 st.2 q) := by
    intro q
    unfold startTrk Frame.trk
    simp only [List.map_nil, ← mul_sub]
    rfl
  simp only [h1, h2, h3, Bool.false_eq_true, if_false, turned_track hF hM hbc]
  cases track (le_refl g) M v bc maxCross (startTrk time dt st.1 st.2 (moveBy dt (accelerate (qom * dt) (E q) q))) with
  | error e => rfl
  | ok s => rfl

end

/-! ### The mesh, the solver and the field -/

section
variable {F : Frame K g} {hg : g ≤ 3} {D D' : DMesh K g} {sh sh' : Shape K g} {N : Nat} {marker : Int → Int} {lo hi : Int} {v0 vN eps : K}

theorem lookup_alike {A B : Type} {R : A → B → Prop} {l : List (Int × A)} {l' : List (Int × B)}
    (h : List.Forall₂ (fun a b => b.1 = a.1 ∧ R a.2 b.2) l l') (k : Int) : Option.Rel R (l.lookup k) (l'.lookup k) := by
  induction h with
  | nil => exact .none
  | @cons a b l l' hab _ ih =>
    obtain ⟨a1, a2⟩ := a
    obtain ⟨b1, b2⟩ := b
    obtain ⟨h1, h2⟩ := hab
    dsimp only at h1 h2
    subst h1
    rw [List.lookup_cons, List.lookup_cons]
    split
    · exact .some h2
    · exact ih

theorem dictGet_alike {A B : Type} {R : A → B → Prop} {l : List (Int × A)} {l' : List (Int × B)}
    (h : List.Forall₂ (fun a b => b.1 = a.1 ∧ R a.2 b.2) l l') (k : Int) : Option.Rel R (dictGet l k) (dictGet l' k) :=
  lookup_alike (List.rel_reverse h) k

theorem same_facets (h : SameMesh hg F D D' sh sh') : facetDict D' = facetDict D := by
  have key := h.cells
  unfold facetDict
  generalize D.cells = l at key
  generalize D'.cells = l' at key
  induction key with
  | nil => rfl
  | cons hc _ ih => rw [List.map_cons, List.map_cons, ih, hc.1, hc.2.2.1]

theorem same_built (h : SameMesh hg F D D' sh sh') {junk : Int} {M : Mesh K g} (e : buildMesh hg D junk marker = .ok M) :
    ∃ M', buildMesh hg D' junk marker = .ok M' ∧ Turned F M M' := by
  have ht : D'.topo = D.topo := by
    unfold DMesh.topo
    rw [same_facets h, h.attached]
  unfold buildMesh at e ⊢
  rw [ht]
  cases hn : pyNeighbors D.topo g junk with
  | error f => rw [hn] at e; cases e
  | ok nbs =>
    rw [hn] at e
    cases e
    refine ⟨_, rfl, fun ci => ?_, rfl⟩
    have h1 := dictGet_alike (l := cellDict D) (l' := cellDict D') (R := fun c c' => c'.verts = c.verts) (by
      unfold cellDict
      rw [List.forall₂_map_left_iff, List.forall₂_map_right_iff]
      exact h.cells.imp fun _ _ hc => ⟨hc.1, hc.2.1⟩) ci
    have h2 := dictGet_alike (l := normalDict hg D) (l' := normalDict hg D') (R := fun c c' => c' = c.map F.turn) (by
      unfold normalDict
      rw [List.forall₂_map_left_iff, List.forall₂_map_right_iff]
      refine h.cells.imp fun c c' hc => ⟨hc.1, ?_⟩
      rw [List.map_map]
      refine List.map_congr_left fun k hk => hc.2.2.2.1 k (by have := List.mem_range.1 hk; omega)) ci
    dsimp only
    rw [same_facets h]
    generalize dictGet (cellDict D) ci = a1 at *
    generalize dictGet (cellDict D') ci = a2 at *
    generalize dictGet (normalDict hg D) ci = b1 at *
    generalize dictGet (normalDict hg D') ci = b2 at *
    cases h1 with
    | none => rfl
    | @some c c' hc =>
      cases dictGet (facetDict D) ci with
      | none => rfl
      | some fs =>
        cases dictGet nbs ci with
        | none => rfl
        | some nb =>
          cases h2 with
          | none => rfl
          | @some n n' hn =>
            rw [hn]
            show some _ = some _
            unfold Frame.cell
            rw [hc, List.map_map]
            congr 2
            exact List.map_congr_left fun v _ => h.coord v

theorem same_corner (hF : F.Valid) (h : SameMesh hg F D D' sh sh') {c c' : DSimplex K} (hv : c'.verts = c.verts) (j k : Fin (g + 1)) :
    corner D' c' j - corner D' c' k = F.move (corner D c j - corner D c k) := by
  unfold corner
  rw [hv, h.coord, h.coord, pos_sub hF]

/-- Gradients in other coordinates. -/
theorem same_grad (hF : F.Valid) (h : SameMesh hg F D D' sh sh') (hm : Meshed D sh N) (hm' : Meshed D' sh' N) {c c' : DSimplex K}
    (hc : c ∈ D.cells) (hc' : c' ∈ D'.cells) (hv : c'.verts = c.verts) (u : Nat → K) :
    gradIn sh' c' u = F.len⁻¹ • F.turn (gradIn sh c u) := by
  refine isGrad_unique hm' hc' (isGrad_gradIn hm' hc' u) fun j => ?_
  rw [same_corner hF h hv, dot_smul_l, dot_turn_move hF, isGrad_gradIn hm hc u j, ← mul_assoc, inv_mul_cancel₀ hF.len.ne', one_mul, hv]

theorem same_basis (hF : F.Valid) (h : SameMesh hg F D D' sh sh') (hm : Meshed D sh N) (hm' : Meshed D' sh' N) {c c' : DSimplex K}
    (hc : c ∈ D.cells) (hc' : c' ∈ D'.cells) (hv : c'.verts = c.verts) {k : Nat} (hk : k ≤ g) : sh'.grad c' k = F.len⁻¹ • F.turn (sh.grad c k) := by
  -- the gradient of the basis function of corner `k`, as the only vector with these products
  have huniq : ∀ G G' : Vec K g, (∀ j : Fin (g + 1), dot G (corner D' c' j - corner D' c' 0) = dot G' (corner D' c' j - corner D' c' 0)) → G = G' := by
    intro G G' hG
    have h0 : G - G' = 0 := by
      refine isGrad_unique hm' hc' (u := fun _ => 0) (fun j => ?_) (fun j => ?_)
      · have : dot (G - G') (corner D' c' j - corner D' c' 0) = dot G (corner D' c' j - corner D' c' 0) - dot G' (corner D' c' j - corner D' c' 0) := by
          simp only [dot, Pi.sub_apply, ← Finset.sum_sub_distrib]
          exact Finset.sum_congr rfl fun i _ => by ring
        rw [this, hG j, sub_self, sub_self]
      · simp [dot]
    exact sub_eq_zero.1 h0
  refine huniq _ _ fun j => ?_
  have a := hm.basis c hc ⟨k, by omega⟩ j
  have b := hm'.basis c' hc' ⟨k, by omega⟩ j
  dsimp only at a b
  rw [b, same_corner hF h hv, dot_smul_l, dot_turn_move hF, a, ← mul_assoc, inv_mul_cancel₀ hF.len.ne', one_mul]

theorem forall₂_mem {A B : Type} {R : A → B → Prop} {l : List A} {l' : List B} (h : List.Forall₂ R l l') :
    List.Forall₂ (fun a b => R a b ∧ a ∈ l ∧ b ∈ l') l l' := by
  induction h with
  | nil => exact .nil
  | cons hab _ ih =>
    exact .cons ⟨hab, List.mem_cons_self, List.mem_cons_self⟩ (ih.imp fun a b h => ⟨h.1, List.mem_cons_of_mem _ h.2.1, List.mem_cons_of_mem _ h.2.2⟩)

theorem same_touches (h : SameMesh hg F D D' sh sh') (tag : Int) (i : Nat) : touches D' marker tag i = touches D marker tag i := by
  unfold touches facetVerts
  have key := h.cells
  generalize D.cells = l at key
  generalize D'.cells = l' at key
  induction key with
  | nil => rfl
  | cons hc _ ih => rw [List.any_cons, List.any_cons, ih, hc.2.1, hc.2.2.1]

theorem sum_alike {A B : Type} {a b : K} {f : A → K} {f' : B → K} {l : List A} {l' : List B}
    (h : List.Forall₂ (fun c c' => a * f' c' = b * f c) l l') : a * (l'.map f').sum = b * (l.map f).sum := by
  induction h with
  | nil => simp
  | cons hc _ ih => rw [List.map_cons, List.map_cons, List.sum_cons, List.sum_cons, mul_add, mul_add, hc, ih]

theorem same_stiffness (hF : F.Valid) (h : SameMesh hg F D D' sh sh') (hm : Meshed D sh N) (hm' : Meshed D' sh' N) (i j : Nat) :
    F.volt (stiffnessOn (F.perm eps) D' sh' i j) = F.charge * stiffnessOn eps D sh i j := by
  have p1 := hF.len.ne'
  have p2 := hF.time.ne'
  have p3 := hF.mass.ne'
  have p4 := hF.charge.ne'
  refine sum_alike ((forall₂_mem h.cells).imp fun c c' hc => ?_)
  obtain ⟨⟨-, hv, -, -, hvol⟩, m, m'⟩ := hc
  rw [same_grad hF h hm hm' m m' hv, same_grad hF h hm hm' m m' hv, dot_smul_l, dot_smul_r, hF.dot, hvol]
  unfold Frame.perm
  field_simp

theorem volt_smul (F : Frame K g) (a b : K) : F.volt (a * b) = a * F.volt b := by unfold Frame.volt; ring

theorem volt_ne (hF : F.Valid) : F.mass * F.len ^ 2 / (F.time ^ 2 * F.charge) ≠ 0 :=
  div_ne_zero (mul_ne_zero hF.mass.ne' (pow_ne_zero _ hF.len.ne')) (mul_ne_zero (pow_ne_zero _ hF.time.ne') hF.charge.ne')

theorem volt_inj (hF : F.Valid) {a b : K} (h : F.volt a = F.volt b) : a = b := mul_left_cancel₀ (volt_ne hF) h

theorem volt_getD (F : Frame K g) (l : List K) (i : Nat) : (l.map F.volt).getD i 0 = F.volt (l.getD i 0) := by
  have : F.volt 0 = 0 := by unfold Frame.volt; ring
  simp only [List.getD_eq_getElem?_getD, List.getElem?_map]
  cases l[i]? with
  | none => exact this.symm
  | some a => rfl

theorem same_side (h : SameMesh hg F D D' sh sh') (tag : Int) (i : Nat) : OnSide D' marker tag i ↔ OnSide D marker tag i := by
  rw [← touches_iff, ← touches_iff, same_touches h]

/-- C130.  The solver finds the same potential in other coordinates. -/
theorem same_solution (hF : F.Valid) (h : SameMesh hg F D D' sh sh') (hm : Meshed D sh N) (hm' : Meshed D' sh' N) (he : 0 < eps)
    (hl : ∀ i ≤ N, Linked D (fun i => OnSide D marker lo i ∨ OnSide D marker hi i) i) {Q Q' U U' : List K} (hQ : Q.length = N + 1)
    (hQ' : Q' = Q.map (F.charge * ·))
    (hU : Solves N (madeOn eps D sh N marker lo hi v0 vN).A (applyVecOn (touches D marker) [(lo, v0), (hi, vN)] Q) U)
    (hU' : Solves N (madeOn (F.perm eps) D' sh' N marker lo hi (F.volt v0) (F.volt vN)).A
      (applyVecOn (touches D' marker) [(lo, F.volt v0), (hi, F.volt vN)] Q') U') : U' = U.map F.volt := by
  have hQl : Q'.length = N + 1 := by rw [hQ', List.length_map, hQ]
  obtain ⟨l', k'⟩ := (solves_iff hQl).1 hU'
  -- the second solution in the old coordinates
  let W := U'.map (fun y => y / (F.mass * F.len ^ 2 / (F.time ^ 2 * F.charge)))
  have hW : W.map F.volt = U' := by
    rw [List.map_map]
    conv_rhs => rw [← List.map_id U']
    refine List.map_congr_left fun y _ => ?_
    show F.volt (y / _) = y
    unfold Frame.volt
    rw [mul_div_cancel₀ _ (volt_ne hF)]
  have hWg : ∀ i, U'.getD i 0 = F.volt (W.getD i 0) := fun i => by rw [← hW, volt_getD]
  have hWs : Solves N (madeOn eps D sh N marker lo hi v0 vN).A (applyVecOn (touches D marker) [(lo, v0), (hi, vN)] Q) W := by
    refine (solves_iff hQ).2 ⟨by rw [List.length_map, l'], fun i hi' => ?_⟩
    obtain ⟨a1, a2, a3⟩ := k' i hi'
    rw [same_side h, same_side h] at *
    refine ⟨fun b => volt_inj hF ?_, fun b b' => volt_inj hF ?_, fun b b' => ?_⟩
    · rw [← hWg]; exact a1 b
    · rw [← hWg]; exact a2 b b'
    · have e := a3 b b'
      have e2 : F.charge * ∑ j ∈ Finset.range (N + 1), stiffnessOn eps D sh i j * W.getD j 0 = F.charge * Q.getD i 0 := by
        have : Q'.getD i 0 = F.charge * Q.getD i 0 := by
          rw [hQ', List.getD_eq_getElem?_getD, List.getD_eq_getElem?_getD, List.getElem?_map]
          cases Q[i]? <;> simp
        rw [← this, ← e, Finset.mul_sum]
        refine Finset.sum_congr rfl fun j _ => ?_
        rw [hWg, ← mul_assoc, ← same_stiffness hF h hm hm' i j]
        unfold Frame.volt
        ring
      exact mul_left_cancel₀ hF.charge.ne' e2
  have h1 : (([("rmin", lo, Val.num v0), ("rmax", hi, Val.num vN)] : List (String × Int × Val K)).lookup "rmin") = some (lo, .num v0) := rfl
  have h2 : (([("rmin", lo, Val.num v0), ("rmax", hi, Val.num vN)] : List (String × Int × Val K)).lookup "rmax") = some (hi, .num vN) := rfl
  obtain ⟨s, es, key⟩ := C94_potential he hm hl h1 h2
  rw [createOn_eq h1 h2] at es
  cases es
  obtain ⟨F1, -, y1⟩ := (key Q hQ).2 U hU
  obtain ⟨F2, -, y2⟩ := (key Q hQ).2 W hWs
  have hu := (C94_unique he hm hl y1 y2).1
  rw [← hW]
  congr 1
  have lU := hU.1
  have lW := hWs.1
  refine (List.ext_getElem (by rw [lU, lW]) fun i hi1 hi2 => ?_).symm
  have := hu i (by omega)
  simp only [List.getD_eq_getElem?_getD, List.getElem?_eq_getElem hi1, List.getElem?_eq_getElem hi2, Option.getD_some] at this
  exact this

/-- The negative field in a cell in other coordinates. -/
theorem same_negE (hF : F.Valid) (h : SameMesh hg F D D' sh sh') (hm : Meshed D sh N) (hm' : Meshed D' sh' N) (phi : List K) :
    negEOn D' sh' (phi.map F.volt) = (negEOn D sh phi).map F.field := by
  unfold negEOn
  rw [List.map_map]
  have key := forall₂_mem h.cells
  have p1 := hF.len.ne'
  have e : List.Forall₂ (fun c c' => gradIn sh' c' (fun i => (phi.map F.volt).getD i 0) = F.field (gradIn sh c (fun i => phi.getD i 0))) D.cells D'.cells := by
    refine key.imp fun c c' hc => ?_
    obtain ⟨⟨-, hv, -, -, -⟩, m, m'⟩ := hc
    rw [same_grad hF h hm hm' m m' hv]
    have : (fun i => (phi.map F.volt).getD i 0) = (fun i => F.mass * F.len ^ 2 / (F.time ^ 2 * F.charge) * phi.getD i 0) := by
      funext i
      rw [volt_getD]
      rfl
    rw [this, gradIn_smul]
    show F.len⁻¹ • F.turn ((F.mass * F.len ^ 2 / (F.time ^ 2 * F.charge)) • gradIn sh c (fun i => phi.getD i 0)) = _
    rw [hF.smul, smul_smul]
    unfold Frame.field
    congr 1
    field_simp
  clear key
  generalize D.cells = l at e
  generalize D'.cells = l' at e
  induction e with
  | nil => rfl
  | cons hc _ ih => rw [List.map_cons, List.map_cons, ih, hc]; rfl

theorem find_alike {R : DSimplex K → DSimplex K → Prop} {l l' : List (DSimplex K)} (h : List.Forall₂ (fun c c' => c'.index = c.index ∧ R c c') l l')
    (k : Int) : Option.Rel R (l.find? (fun s => decide (s.index = k))) (l'.find? (fun s => decide (s.index = k))) := by
  induction h with
  | nil => exact .none
  | cons hc _ ih =>
    rw [List.find?_cons, List.find?_cons, hc.1]
    split
    · exact .some hc.2
    · exact ih

theorem same_find (h : SameMesh hg F D D' sh sh') (k : Int) :
    Option.Rel (fun c c' => c'.verts = c.verts ∧ c ∈ D.cells ∧ c' ∈ D'.cells) (D.cells.find? (fun s => decide (s.index = k)))
      (D'.cells.find? (fun s => decide (s.index = k))) :=
  find_alike ((forall₂_mem h.cells).imp fun _ _ hc => ⟨hc.1.1, hc.1.2.1, hc.2⟩) k

theorem same_dofs (h : SameMesh hg F D D' sh sh') (cell : Part K g ρ → Nat) (pos : Part K g ρ → Vec K g) :
    (meshSpace D' sh' cell pos).dofs = (meshSpace D sh cell pos).dofs := by
  funext k
  unfold meshSpace
  dsimp only
  have := same_find h k
  generalize D.cells.find? (fun s => decide (s.index = (k : Int))) = a at *
  generalize D'.cells.find? (fun s => decide (s.index = (k : Int))) = a' at *
  cases this with
  | none => rfl
  | some hc => rw [Option.map_some, Option.map_some, hc.1]

theorem same_shares (hF : F.Valid) (h : SameMesh hg F D D' sh sh') (hm : Meshed D sh N) (hm' : Meshed D' sh' N) {cell : Part K g ρ → Nat}
    (q : Part K g ρ) (hq : cell (F.part q) = cell q) :
    (meshSpace D' sh' cell (fun q => q.x)).basis (F.part q) = (meshSpace D sh cell (fun q => q.x)).basis q := by
  unfold meshSpace
  dsimp only
  rw [hq]
  have := same_find h (cell q)
  generalize D.cells.find? (fun s => decide (s.index = (cell q : Int))) = a at *
  generalize D'.cells.find? (fun s => decide (s.index = (cell q : Int))) = a' at *
  cases this with
  | none => rfl
  | @some c c' hc =>
    obtain ⟨hv, m, m'⟩ := hc
    rw [Option.map_some, Option.map_some]
    rw [Option.getD_some, Option.getD_some]
    refine List.map_congr_left fun k hk => ?_
    rw [same_basis hF h hm hm' m m' hv (by have := List.mem_range.1 hk; omega), hv, h.coord]
    show _ + dot _ (F.pos q.x - _) = _
    rw [pos_sub hF, dot_smul_l, dot_turn_move hF, ← mul_assoc, inv_mul_cancel₀ hF.len.ne', one_mul]

theorem same_on (h : SameMesh hg F D D' sh sh') (q : Part K g ρ) : onCells D' (F.part q) = onCells D q := by
  unfold onCells Frame.part
  have key := h.cells
  generalize D.cells = l at key
  generalize D'.cells = l' at key
  induction key with
  | nil => rfl
  | cons hc _ ih => rw [List.any_cons, List.any_cons, ih, hc.1]

section
variable {σ : Type} {cfg cfg' : Cfg K V (Part K g ρ) σ (List (Vec K g))} {s s' : Solver K} {d d' : Nat → Nat} {C C' : Nat}

/-- C130.  The potential of the same particles in other coordinates. -/
theorem alike_potential (hF : F.Valid) (h : SameMesh hg F D D' sh sh') (hm : Meshed D sh N) (hm' : Meshed D' sh' N) (he : 0 < eps)
    (hl : ∀ i ≤ N, Linked D (fun i => OnSide D marker lo i ∨ OnSide D marker hi i) i)
    (hs : s = madeOn eps D sh N marker lo hi v0 vN) (hs' : s' = madeOn (F.perm eps) D' sh' N marker lo hi (F.volt v0) (F.volt vN))
    (hP : PlasmaOn cfg D sh N marker s d C) (hP' : PlasmaOn cfg' D' sh' N marker s' d' C')
    (hw : ∀ q, cfg'.A.weight (F.part q) = cfg.A.weight q) (hf : cfg'.factor = cfg.factor) (pops : List (Pop K V (Part K g ρ))) :
    potential cfg' (N + 1) (pops.map F.pop) = (potential cfg (N + 1) pops).map F.volt := by
  subst hs hs'
  have hch : ∀ j, chargeAt cfg' (pops.map F.pop) j = F.charge * chargeAt cfg pops j := by
    intro j
    unfold chargeAt
    rw [List.map_map, ← List.sum_map_mul_left]
    congr 1
    refine List.map_congr_left fun p _ => ?_
    show (F.charge * p.charge) * ((p.st.items.map F.part).map (contrib cfg'.A cfg'.SD j)).sum = _
    have : (p.st.items.map F.part).map (contrib cfg'.A cfg'.SD j) = p.st.items.map (contrib cfg.A cfg.SD j) := by
      rw [List.map_map]
      refine List.map_congr_left fun q _ => ?_
      show contrib cfg'.A cfg'.SD j (F.part q) = contrib cfg.A cfg.SD j q
      have hcell : cfg'.A.cell = cfg.A.cell := by
        funext q
        rw [hP.cell, hP'.cell]
      have hc2 : cfg.A.cell (F.part q) = cfg.A.cell q := by
        rw [hP.cell, hP.cell]
        rfl
      unfold contrib
      rw [hw, hP.space, hP'.space, hcell, hc2, same_dofs h, same_shares hF h hm hm' q hc2]
    rw [this]
    ring
  unfold potential
  rw [hP.bc, hP'.bc]
  have l1 : ((List.range (N + 1)).map (fun j => chargeAt cfg pops j * cfg.factor.getD 1)).length = N + 1 := by simp
  refine same_solution hF h hm hm' he hl l1 (Q' := (List.range (N + 1)).map (fun j => chargeAt cfg' (pops.map F.pop) j * cfg'.factor.getD 1)) ?_
    (hP.solve _ (by rw [rhs_length]; exact l1)) (hP'.solve _ (by rw [rhs_length]; simp))
  rw [List.map_map]
  refine List.map_congr_left fun j _ => ?_
  show chargeAt cfg' (pops.map F.pop) j * cfg'.factor.getD 1 = F.charge * (chargeAt cfg pops j * cfg.factor.getD 1)
  rw [hch, hf, mul_assoc]

end

end

end Dt
