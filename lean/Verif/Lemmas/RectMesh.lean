import Verif.Model.RectMesh
import Verif.Spec.RectMesh
import Verif.Lemmas.LineMesh
import Verif.Spec.Leapfrog
import Mathlib.Tactic.FinCases
import Mathlib.Tactic.IntervalCases
import Mathlib.Tactic.Linarith

/-!
# The rectangle mesh is a conforming mesh of a convex domain
-/

set_option linter.unusedSectionVars false
set_option linter.unusedVariables false

namespace Dt
namespace Rect
open Mark (RFacet)
variable {K : Type} [Field K] [LinearOrder K] [IsStrictOrderedRing K]

theorem dotP (a b : Vec K 2) : dot a b = a 0 * b 0 + a 1 * b 1 := by
  simp [dot, Fin.sum_univ_two]

variable {x y : Nat → K} {d : Nat → Nat → Bool} {nx ny i j : Nat} {s : Bool}

theorem edges_length (b s : Bool) : (edges b s).length = 3 := by cases b <;> cases s <;> rfl

theorem corners_length (x0 x1 y0 y1 : K) (b s : Bool) : (corners x0 x1 y0 y1 b s).length = 3 := by
  cases b <;> cases s <;> rfl

theorem cell_regular (hx : x i < x (i + 1)) (hy : y j < y (j + 1)) : (cell x y d nx ny i j s).Regular := by
  have ha := sub_pos.2 hx
  have hc := sub_pos.2 hy
  have hac := mul_pos ha hc
  refine ⟨by omega, corners_length _ _ _ _ _ _, by simp [cell, edges_length], by simp [cell, edges_length],
    by simp [cell, edges_length], ?_, ?_⟩
  all_goals
    intro k a b n va vb hn hva hvb ha hb
    simp only [cell] at hn hva hvb
    generalize x i = x0 at *
    generalize x (i + 1) = x1 at *
    generalize y j = y0 at *
    generalize y (j + 1) = y1 at *
    have hk : k < 3 := by
      have := (List.getElem?_eq_some_iff.1 hn).1; simpa [edges_length] using this
    have ha' : a < 3 := by
      have := (List.getElem?_eq_some_iff.1 hva).1; simpa [corners_length] using this
    have hb' : b < 3 := by
      have := (List.getElem?_eq_some_iff.1 hvb).1; simpa [corners_length] using this
    cases hd : d i j <;> cases s <;> simp only [hd, edges, corners, List.map] at hn hva hvb <;>
      interval_cases k <;> interval_cases a <;> interval_cases b <;>
      first
      | (exfalso; revert ha hb; simp [onFacet]; done)
      | (obtain rfl := Option.some.inj hn
         obtain rfl := Option.some.inj hva
         obtain rfl := Option.some.inj hvb
         simp only [dotP, normal, Pi.sub_apply, Matrix.cons_val_zero, Matrix.cons_val_one]
         nlinarith)

/-- The points of a triangle. -/
def InTri (x0 x1 y0 y1 : K) (q : Vec K 2) : Bool → Bool → Prop
  | true, false => q 0 ≤ x1 ∧ y0 ≤ q 1 ∧ (x1 - x0) * (q 1 - y0) ≤ (y1 - y0) * (q 0 - x0)
  | true, true => x0 ≤ q 0 ∧ q 1 ≤ y1 ∧ (y1 - y0) * (q 0 - x0) ≤ (x1 - x0) * (q 1 - y0)
  | false, false => x0 ≤ q 0 ∧ y0 ≤ q 1 ∧ (y1 - y0) * (q 0 - x0) + (x1 - x0) * (q 1 - y0) ≤ (x1 - x0) * (y1 - y0)
  | false, true => q 0 ≤ x1 ∧ q 1 ≤ y1 ∧ (x1 - x0) * (y1 - y0) ≤ (y1 - y0) * (q 0 - x0) + (x1 - x0) * (q 1 - y0)

theorem cell_has (hx : x i < x (i + 1)) (hy : y j < y (j + 1)) (q : Vec K 2) :
    (cell x y d nx ny i j s).Has q ↔ InTri (x i) (x (i + 1)) (y j) (y (j + 1)) q (d i j) s := by
  rw [← contains_iff (cell_regular hx hy)]
  simp only [cell]
  generalize x i = x0 at *
  generalize x (i + 1) = x1 at *
  generalize y j = y0 at *
  generalize y (j + 1) = y1 at *
  cases hd : d i j <;> cases s <;>
    simp [-and_congr_right_iff, -and_congr_left_iff, Cell.contains, facetTests, InTri, edges, corners, dotP,
      normal] <;>
    constructor <;> rintro ⟨h1, h2, h3⟩ <;> refine ⟨?_, ?_, ?_⟩ <;> nlinarith

/-- The points of an edge. -/
def OnEdge (x0 x1 y0 y1 : K) (q : Vec K 2) (b : Bool) : Edge → Prop
  | .left => q 0 = x0 ∧ y0 ≤ q 1 ∧ q 1 ≤ y1
  | .right => q 0 = x1 ∧ y0 ≤ q 1 ∧ q 1 ≤ y1
  | .bottom => q 1 = y0 ∧ x0 ≤ q 0 ∧ q 0 ≤ x1
  | .top => q 1 = y1 ∧ x0 ≤ q 0 ∧ q 0 ≤ x1
  | .diag => InTri x0 x1 y0 y1 q b true ∧ InTri x0 x1 y0 y1 q b false

theorem onEdge_of {k : Nat} {e : Edge} (hx : x i < x (i + 1)) (hy : y j < y (j + 1))
    (he : (edges (d i j) s)[k]? = some e) {q : Vec K 2} (hq : (cell x y d nx ny i j s).Has q)
    (hp : (cell x y d nx ny i j s).OnPlane k q) :
    OnEdge (x i) (x (i + 1)) (y j) (y (j + 1)) q (d i j) e := by
  rw [cell_has hx hy] at hq
  have ha := sub_pos.2 hx
  have hc := sub_pos.2 hy
  have hk : k < 3 := by have := (List.getElem?_eq_some_iff.1 he).1; simpa [edges_length] using this
  have key : ∀ n v, ((edges (d i j) s).map (normal (x (i + 1) - x i) (y (j + 1) - y j) (d i j) s))[k]? = some n →
      (corners (x i) (x (i + 1)) (y j) (y (j + 1)) (d i j) s)[(k + 1) % 3]? = some v → dot n (q - v) = 0 := by
    intro n v hn hv
    exact hp n v ((k + 1) % 3) hn hv (by simp [onFacet]; omega)
  generalize x i = x0 at *
  generalize x (i + 1) = x1 at *
  generalize y j = y0 at *
  generalize y (j + 1) = y1 at *
  generalize d i j = b at *
  clear hp
  cases b <;> cases s <;> interval_cases k <;> simp [edges] at he <;> subst he <;>
    simp [edges, corners, normal, dotP, InTri, OnEdge] at key hq ⊢ <;>
    obtain ⟨h1, h2, h3⟩ := hq <;>
    first
    | (refine ⟨⟨?_, ?_, ?_⟩, ?_, ?_, ?_⟩ <;> nlinarith)
    | (refine ⟨?_, ?_, ?_⟩ <;> nlinarith)

theorem owner_has {e : Edge} (hx : x i < x (i + 1)) (hy : y j < y (j + 1)) {q : Vec K 2}
    (h : OnEdge (x i) (x (i + 1)) (y j) (y (j + 1)) q (d i j) e) :
    (cell x y d nx ny i j (owner (d i j) e)).Has q := by
  rw [cell_has hx hy]
  have ha := sub_pos.2 hx
  have hc := sub_pos.2 hy
  generalize x i = x0 at *
  generalize x (i + 1) = x1 at *
  generalize y j = y0 at *
  generalize y (j + 1) = y1 at *
  generalize d i j = b at *
  cases b <;> cases e <;> simp [OnEdge, owner, InTri] at h ⊢ <;>
    first
    | (exact ⟨h.2.1, h.2.2⟩)
    | (obtain ⟨h1, h2, h3⟩ := h; refine ⟨?_, ?_, ?_⟩ <;> nlinarith)

theorem diag_has (hx : x i < x (i + 1)) (hy : y j < y (j + 1)) {q : Vec K 2}
    (h : OnEdge (x i) (x (i + 1)) (y j) (y (j + 1)) q (d i j) .diag) (s : Bool) :
    (cell x y d nx ny i j s).Has q := by
  rw [cell_has hx hy]
  cases s
  · exact h.2
  · exact h.1

/-- The place of an edge among those of its triangle. -/
def place (b : Bool) : Edge → Nat
  | .left => if b then 2 else 1
  | .right => if b then 0 else 1
  | .bottom => 2
  | .top => 0
  | .diag => if b then 1 else 0

theorem edges_place (b : Bool) (e : Edge) : (edges b (owner b e))[place b e]? = some e := by
  cases b <;> cases e <;> rfl

/-- The place of the diagonal in triangle `s`. -/
def dplace (b s : Bool) : Nat := if b then 1 else if s then 2 else 0

theorem edges_dplace (b s : Bool) : (edges b s)[dplace b s]? = some .diag := by
  cases b <;> cases s <;> rfl

theorem cell_at (hi : i < nx) (hj : j < ny) (marker : Int → Int) :
    (mesh x y d nx ny marker).cell (cellNo nx i j s) = some (cell x y d nx ny i j s) := by
  have hlt : j * nx + i < nx * ny := by
    have : (j + 1) * nx ≤ ny * nx := Nat.mul_le_mul_right _ hj
    rw [Nat.mul_comm nx ny]
    nlinarith
  have h2 : (cellNo nx i j s) / 2 = ((j * nx + i : Nat) : Int) := by unfold cellNo; cases s <;> simp <;> omega
  have h3 : decide ((cellNo nx i j s) % 2 = 1) = s := by unfold cellNo; cases s <;> simp <;> omega
  have h4 : (j * nx + i) % nx = i := by rw [Nat.mul_comm, Nat.mul_add_mod]; exact Nat.mod_eq_of_lt hi
  have h5 : (j * nx + i) / nx = j := by
    rw [Nat.mul_comm, Nat.mul_add_div (by omega), Nat.div_eq_of_lt hi, Nat.add_zero]
  simp only [mesh]
  rw [if_pos]
  · simp only [h2, h3, Int.toNat_natCast, h4, h5]
  · unfold cellNo
    constructor
    · split <;> omega
    · split <;> omega

theorem cell_inv {marker : Int → Int} {ci : Int} {c : Cell K 2} (h : (mesh x y d nx ny marker).cell ci = some c) :
    ∃ i j s, i < nx ∧ j < ny ∧ ci = cellNo nx i j s ∧ c = cell x y d nx ny i j s := by
  simp only [mesh] at h
  split at h
  · rename_i hci
    have hpos : 0 < nx := by
      rcases Nat.eq_zero_or_pos nx with h0 | h0
      · subst h0; simp at hci; omega
      · exact h0
    have hm : (ci / 2).toNat < ny * nx := by
      have := hci.2; rw [Nat.mul_comm nx ny] at this; omega
    refine ⟨(ci / 2).toNat % nx, (ci / 2).toNat / nx, decide (ci % 2 = 1), Nat.mod_lt _ hpos,
      (Nat.div_lt_iff_lt_mul hpos).2 hm, ?_, (Option.some.inj h).symm⟩
    unfold cellNo
    rw [Nat.mul_comm _ nx, Nat.div_add_mod]
    by_cases h1 : ci % 2 = 1 <;> simp [h1] <;> omega
  · cases h

theorem edgeNo_nonneg (e : Edge) : 0 ≤ edgeNo nx i j e := by
  cases e <;> simp only [edgeNo, hNo, vNo, dNo] <;> omega

theorem facets_nodup : (cell x y d nx ny i j s).facets.Nodup := by
  simp only [cell]
  cases d i j <;> cases s <;> simp [edges, edgeNo, hNo, vNo, dNo] <;> omega

/-- The opposite side. -/
def opp : Edge → Edge
  | .left => .right
  | .right => .left
  | .bottom => .top
  | .top => .bottom
  | .diag => .diag

/-- All outer edges are marked. -/
structure SidesMarked (nx ny : Nat) (marker : Int → Int) : Prop where
  left : ∀ j, j < ny → marker (vNo nx 0 j) ≠ 0
  right : ∀ j, j < ny → marker (vNo nx nx j) ≠ 0
  bottom : ∀ i, i < nx → marker (hNo nx i 0) ≠ 0
  top : ∀ i, i < nx → marker (hNo nx i ny) ≠ 0

theorem cellNo_ne (nx i j : Nat) (s : Bool) : cellNo nx i j s ≠ -1 := by
  unfold cellNo; split <;> omega

/-- The box on the other side of an edge. -/
theorem across_cases {e : Edge} {cj : Int} (hi : i < nx) (hj : j < ny) (h : across d nx ny i j s e = cj) (hc : cj ≠ -1) :
    (e = .diag ∧ cj = cellNo nx i j (!s)) ∨
    ∃ i' j', i' < nx ∧ j' < ny ∧ cj = cellNo nx i' j' (owner (d i' j') (opp e)) ∧
      edgeNo nx i' j' (opp e) = edgeNo nx i j e ∧ e ≠ .diag ∧
      ∀ q : Vec K 2, OnEdge (x i) (x (i + 1)) (y j) (y (j + 1)) q (d i j) e →
        OnEdge (x i') (x (i' + 1)) (y j') (y (j' + 1)) q (d i' j') (opp e) := by
  cases e <;> simp only [across] at h
  · split at h
    · exact absurd h.symm hc
    · right
      obtain ⟨i, rfl⟩ : ∃ m, i = m + 1 := ⟨i - 1, by omega⟩
      exact ⟨i, j, by omega, hj, h.symm, rfl, by simp, fun q hq => hq⟩
  · split at h
    · exact absurd h.symm hc
    · right
      exact ⟨i + 1, j, by omega, hj, h.symm, rfl, by simp, fun q hq => hq⟩
  · split at h
    · exact absurd h.symm hc
    · right
      obtain ⟨j, rfl⟩ : ∃ m, j = m + 1 := ⟨j - 1, by omega⟩
      exact ⟨i, j, by omega, by omega, h.symm, rfl, by simp, fun q hq => hq⟩
  · split at h
    · exact absurd h.symm hc
    · right
      exact ⟨i, j + 1, by omega, by omega, h.symm, rfl, by simp, fun q hq => hq⟩
  · exact .inl ⟨rfl, h.symm⟩

theorem normal_opp {a c a' c' : K} {b s b' s' : Bool} {e : Edge} (h : e ≠ .diag) :
    normal a' c' b' s' (opp e) = -normal a c b s e := by
  cases e <;> first | (exact absurd rfl h) | (funext r; fin_cases r <;> simp [normal, opp])

theorem normal_diag {a c : K} {b s : Bool} : normal a c b (!s) .diag = -normal a c b s .diag := by
  cases b <;> cases s <;> funext r <;> fin_cases r <;> simp [normal]

theorem map_get {β : Type} {l : List Edge} {f : Edge → β} {k : Nat} {v : β} (h : (l.map f)[k]? = some v) :
    ∃ e, l[k]? = some e ∧ f e = v := by
  rw [List.getElem?_map] at h
  cases he : l[k]? with
  | none => rw [he] at h; cases h
  | some e => rw [he] at h; exact ⟨e, rfl, Option.some.inj h⟩

theorem conforming (hx : ∀ i, i < nx → x i < x (i + 1)) (hy : ∀ j, j < ny → y j < y (j + 1))
    {marker : Int → Int} (hm : SidesMarked nx ny marker) : (mesh x y d nx ny marker).Conforming := by
  refine ⟨?_, ?_, ?_, ?_, ?_⟩
  · intro ci c h
    obtain ⟨i, j, s, hi, hj, -, rfl⟩ := cell_inv h
    exact cell_regular (hx i hi) (hy j hj)
  · intro ci c h
    obtain ⟨i, j, s, hi, hj, -, rfl⟩ := cell_inv h
    exact facets_nodup
  · intro ci c F h hF
    obtain ⟨i, j, s, hi, hj, -, rfl⟩ := cell_inv h
    obtain ⟨e, -, rfl⟩ := List.mem_map.1 hF
    exact edgeNo_nonneg e
  · intro ci c k cj h hk hcj
    obtain ⟨i, j, s, hi, hj, -, rfl⟩ := cell_inv h
    obtain ⟨e, he, ha⟩ := map_get hk
    rcases across_cases (x := x) (y := y) hi hj ha hcj with ⟨rfl, rfl⟩ | ⟨i', j', hi', hj', rfl, hno, hne, hq⟩
    · refine ⟨_, dplace (d i j) (!s), cell_at hi hj marker, ?_, ?_, ?_⟩
      · simp [cell, he, edges_dplace]
      · intro n n' hn hn'
        simp only [cell, List.getElem?_map, he, edges_dplace, Option.map_some, Option.some.injEq] at hn hn'
        refine ⟨1, one_pos, ?_⟩
        rw [← hn, ← hn', one_smul, normal_diag]
      · intro q hq hp
        exact diag_has (hx i hi) (hy j hj) (onEdge_of (hx i hi) (hy j hj) he hq hp) _
    · refine ⟨_, place (d i' j') (opp e), cell_at hi' hj' marker, ?_, ?_, ?_⟩
      · simp [cell, he, edges_place, hno]
      · intro n n' hn hn'
        simp only [cell, List.getElem?_map, he, edges_place, Option.map_some, Option.some.injEq] at hn hn'
        refine ⟨1, one_pos, ?_⟩
        rw [← hn, ← hn', one_smul]
        exact normal_opp hne
      · intro q hc hp
        exact owner_has (hx i' hi') (hy j' hj') (hq q (onEdge_of (hx i hi) (hy j hj) he hc hp))
  · intro ci c k F h hk hF
    obtain ⟨i, j, s, hi, hj, -, rfl⟩ := cell_inv h
    obtain ⟨e, he, ha⟩ := map_get hk
    simp only [cell, List.getElem?_map, he, Option.map_some, Option.some.injEq] at hF
    subst hF
    show marker _ ≠ 0
    cases e <;> simp only [across] at ha
    · split at ha
      · rename_i h0; subst h0; exact hm.left j hj
      · exact absurd ha (cellNo_ne _ _ _ _)
    · split at ha
      · rename_i h0; simp only [edgeNo, h0]; exact hm.right j hj
      · exact absurd ha (cellNo_ne _ _ _ _)
    · split at ha
      · rename_i h0; subst h0; exact hm.bottom i hi
      · exact absurd ha (cellNo_ne _ _ _ _)
    · split at ha
      · rename_i h0; simp only [edgeNo, h0]; exact hm.top i hi
      · exact absurd ha (cellNo_ne _ _ _ _)
    · exact absurd ha (cellNo_ne _ _ _ _)

/-- The rectangle. -/
abbrev inRect (x y : Nat → K) (nx ny : Nat) : Vec K 2 → Bool := inBounds (x 0) (x nx) (y 0) (y ny)

theorem mono_le {z : Nat → K} {n : Nat} (hz : ∀ i, i < n → z i < z (i + 1)) :
    ∀ {k m : Nat}, k ≤ m → m ≤ n → z k ≤ z m := by
  intro k m hkm
  induction m, hkm using Nat.le_induction with
  | base => intro _; exact le_refl _
  | succ m hkm ih => intro hm; exact (ih (by omega)).trans (hz m (by omega)).le

/-- A triangle lies in its box. -/
theorem inBox {x0 x1 y0 y1 : K} (hx : x0 < x1) (hy : y0 < y1) {q : Vec K 2} {b s : Bool}
    (h : InTri x0 x1 y0 y1 q b s) : x0 ≤ q 0 ∧ q 0 ≤ x1 ∧ y0 ≤ q 1 ∧ q 1 ≤ y1 := by
  have ha := sub_pos.2 hx
  have hc := sub_pos.2 hy
  cases b <;> cases s <;> obtain ⟨h1, h2, h3⟩ := h <;> refine ⟨?_, ?_, ?_, ?_⟩ <;> nlinarith

theorem convex (hx : ∀ i, i < nx → x i < x (i + 1)) (hy : ∀ j, j < ny → y j < y (j + 1)) (marker : Int → Int) :
    (mesh x y d nx ny marker).Convex (inRect x y nx ny) := by
  refine ⟨?_, ?_⟩
  · intro ci c q h hq
    obtain ⟨i, j, s, hi, hj, -, rfl⟩ := cell_inv h
    obtain ⟨h1, h2, h3, h4⟩ := inBox (hx i hi) (hy j hj) ((cell_has (hx i hi) (hy j hj) q).1 hq)
    simp only [inRect, inBounds, decide_eq_true_eq]
    exact ⟨(mono_le hx (Nat.zero_le _) hi.le).trans h1, h2.trans (mono_le hx hi (le_refl _)),
      (mono_le hy (Nat.zero_le _) hj.le).trans h3, h4.trans (mono_le hy hj (le_refl _))⟩
  · intro ci c k h hk q hq n v a hn hv ha
    obtain ⟨i, j, s, hi, hj, -, rfl⟩ := cell_inv h
    obtain ⟨e, he, hac⟩ := map_get hk
    obtain ⟨e', he', hne⟩ := map_get hn
    rw [he] at he'
    cases he'
    simp only [inRect, inBounds, decide_eq_true_eq] at hq
    have hbox : ∀ e, across d nx ny i j s e = -1 →
        (e = .left ∧ x i = x 0) ∨ (e = .right ∧ x (i + 1) = x nx) ∨ (e = .bottom ∧ y j = y 0) ∨
        (e = .top ∧ y (j + 1) = y ny) := by
      intro e hac
      cases e <;> simp only [across] at hac
      · split at hac
        · rename_i h0; subst h0; exact .inl ⟨rfl, rfl⟩
        · exact absurd hac (cellNo_ne _ _ _ _)
      · split at hac
        · rename_i h0; rw [h0]; exact .inr (.inl ⟨rfl, rfl⟩)
        · exact absurd hac (cellNo_ne _ _ _ _)
      · split at hac
        · rename_i h0; subst h0; exact .inr (.inr (.inl ⟨rfl, rfl⟩))
        · exact absurd hac (cellNo_ne _ _ _ _)
      · split at hac
        · rename_i h0; rw [h0]; exact .inr (.inr (.inr ⟨rfl, rfl⟩))
        · exact absurd hac (cellNo_ne _ _ _ _)
      · exact absurd hac (cellNo_ne _ _ _ _)
    have hb := hbox e hac
    have hk3 : k < 3 := by have := (List.getElem?_eq_some_iff.1 he).1; simpa [edges_length] using this
    have ha3 : a < 3 := by
      have := (List.getElem?_eq_some_iff.1 hv).1; simpa [cell, corners_length] using this
    simp only [cell] at hv
    clear hac hbox hk hn h
    subst hne
    obtain ⟨q1, q2, q3, q4⟩ := hq
    generalize x i = x0 at *
    generalize x (i + 1) = x1 at *
    generalize y j = y0 at *
    generalize y (j + 1) = y1 at *
    generalize d i j = b at *
    rcases hb with ⟨rfl, hb⟩ | ⟨rfl, hb⟩ | ⟨rfl, hb⟩ | ⟨rfl, hb⟩ <;> cases b <;> cases s <;>
      interval_cases k <;> (try (simp [edges] at he; done)) <;> interval_cases a <;>
      (try (exfalso; revert ha; simp [onFacet]; done)) <;>
      simp [corners] at hv <;> subst hv <;> simp [dotP, normal] <;> linarith

/-- Every point of the rectangle is in a cell. -/
theorem covers (hnx : 1 ≤ nx) (hny : 1 ≤ ny) (hx : ∀ i, i < nx → x i < x (i + 1))
    (hy : ∀ j, j < ny → y j < y (j + 1)) (marker : Int → Int) {q : Vec K 2} (hq : inRect x y nx ny q = true) :
    ∃ ci, (mesh x y d nx ny marker).isInside q ci = .ok true := by
  have key : ∀ (z : Nat → K) (n : Nat), 1 ≤ n → ∀ t : K, z 0 ≤ t → t ≤ z n → ∃ k, k < n ∧ z k ≤ t ∧ t ≤ z (k + 1) := by
    intro z n hn t h0 h1
    induction n, hn using Nat.le_induction with
    | base => exact ⟨0, by omega, h0, h1⟩
    | succ n hn ih =>
      rcases le_total t (z n) with h | h
      · obtain ⟨k, hk, a, b⟩ := ih h
        exact ⟨k, by omega, a, b⟩
      · exact ⟨n, by omega, h, h1⟩
  simp only [inRect, inBounds, decide_eq_true_eq] at hq
  obtain ⟨i, hi, a1, a2⟩ := key x nx hnx _ hq.1 hq.2.1
  obtain ⟨j, hj, b1, b2⟩ := key y ny hny _ hq.2.2.1 hq.2.2.2
  have hex : ∃ s, (cell x y d nx ny i j s).Has q := by
    simp only [cell_has (hx i hi) (hy j hj)]
    have ha := hx i hi
    have hc := hy j hj
    generalize x i = x0 at *
    generalize x (i + 1) = x1 at *
    generalize y j = y0 at *
    generalize y (j + 1) = y1 at *
    cases d i j
    · rcases le_total ((y1 - y0) * (q 0 - x0) + (x1 - x0) * (q 1 - y0)) ((x1 - x0) * (y1 - y0)) with h | h
      · exact ⟨false, a1, b1, h⟩
      · exact ⟨true, a2, b2, h⟩
    · rcases le_total ((x1 - x0) * (q 1 - y0)) ((y1 - y0) * (q 0 - x0)) with h | h
      · exact ⟨false, a2, b1, h⟩
      · exact ⟨true, a1, b2, h⟩
  obtain ⟨s, hs⟩ := hex
  refine ⟨cellNo nx i j s, ?_⟩
  unfold Mesh.isInside Mesh.lookup
  rw [cell_at hi hj]
  simp only [bind, Except.bind, pure, Except.pure, Except.ok.injEq]
  exact (contains_iff (cell_regular (hx i hi) (hy j hj)) q).2 hs

/-! ### Numbers of facets -/

theorem facetOf_h (hi : i < nx) (hj : j ≤ ny) : facetOf x y d nx ny (hNo nx i j) = some (.h i j) := by
  have h1 : hNo nx i j / 3 = ((j * (nx + 1) + i : Nat) : Int) := by unfold hNo; omega
  have h2 : hNo nx i j % 3 = 0 := by unfold hNo; omega
  have h4 : (j * (nx + 1) + i) % (nx + 1) = i := by
    rw [Nat.mul_comm, Nat.mul_add_mod]; exact Nat.mod_eq_of_lt (by omega)
  have h5 : (j * (nx + 1) + i) / (nx + 1) = j := by
    rw [Nat.mul_comm, Nat.mul_add_div (by omega), Nat.div_eq_of_lt (by omega), Nat.add_zero]
  simp only [facetOf, h1, h2, Int.toNat_natCast, h4, h5]
  rw [if_neg (by unfold hNo; omega), if_pos trivial, if_pos ⟨hi, hj⟩]

theorem facetOf_v (hi : i ≤ nx) (hj : j < ny) : facetOf x y d nx ny (vNo nx i j) = some (.v i j) := by
  have h1 : vNo nx i j / 3 = ((j * (nx + 1) + i : Nat) : Int) := by unfold vNo; omega
  have h2 : vNo nx i j % 3 = 1 := by unfold vNo; omega
  have h4 : (j * (nx + 1) + i) % (nx + 1) = i := by
    rw [Nat.mul_comm, Nat.mul_add_mod]; exact Nat.mod_eq_of_lt (by omega)
  have h5 : (j * (nx + 1) + i) / (nx + 1) = j := by
    rw [Nat.mul_comm, Nat.mul_add_div (by omega), Nat.div_eq_of_lt (by omega), Nat.add_zero]
  simp only [facetOf, h1, h2, Int.toNat_natCast, h4, h5]
  rw [if_neg (by unfold vNo; omega), if_neg (by omega), if_pos trivial, if_pos ⟨hi, hj⟩]

theorem facetOf_d (hi : i < nx) (hj : j < ny) :
    ∃ a b, facetOf x y d nx ny (dNo nx i j) = some (.inner a b) := by
  have h1 : dNo nx i j / 3 = ((j * (nx + 1) + i : Nat) : Int) := by unfold dNo; omega
  have h2 : dNo nx i j % 3 = 2 := by unfold dNo; omega
  have h4 : (j * (nx + 1) + i) % (nx + 1) = i := by
    rw [Nat.mul_comm, Nat.mul_add_mod]; exact Nat.mod_eq_of_lt (by omega)
  have h5 : (j * (nx + 1) + i) / (nx + 1) = j := by
    rw [Nat.mul_comm, Nat.mul_add_div (by omega), Nat.div_eq_of_lt (by omega), Nat.add_zero]
  simp only [facetOf, h1, h2, Int.toNat_natCast, h4, h5]
  rw [if_neg (by unfold dNo; omega), if_neg (by omega), if_neg (by omega), if_pos ⟨hi, hj⟩]
  cases d i j <;> exact ⟨_, _, rfl⟩

/-- What is found under a number. -/
theorem facetOf_inv {F : Int} {f : RFacet K} (h : facetOf x y d nx ny F = some f) :
    (∃ i j, i < nx ∧ j ≤ ny ∧ f = .h i j ∧ F = hNo nx i j) ∨
    (∃ i j, i ≤ nx ∧ j < ny ∧ f = .v i j ∧ F = vNo nx i j) ∨
    (∃ a b, f = .inner a b) := by
  simp only [facetOf] at h
  have hm : ∀ m : Nat, m / (nx + 1) * (nx + 1) + m % (nx + 1) = m := fun m => by
    rw [Nat.mul_comm]; exact Nat.div_add_mod _ _
  split at h
  · cases h
  · rename_i h0
    split at h
    · rename_i h3
      split at h
      · rename_i hij
        cases h
        refine .inl ⟨_, _, hij.1, hij.2, rfl, ?_⟩
        unfold hNo
        rw [hm]; omega
      · cases h
    · split at h
      · rename_i h3
        split at h
        · rename_i hij
          cases h
          refine .inr (.inl ⟨_, _, hij.1, hij.2, rfl, ?_⟩)
          unfold vNo
          rw [hm]; omega
        · cases h
      · split at h
        · cases h
          right; right
          split <;> exact ⟨_, _, rfl⟩
        · cases h

/-- The facet is on the side. -/
def OnSide (nx ny : Nat) (F : Int) : Side → Prop
  | .left => ∃ j, j < ny ∧ F = vNo nx 0 j
  | .right => ∃ j, j < ny ∧ F = vNo nx nx j
  | .bottom => ∃ i, i < nx ∧ F = hNo nx i 0
  | .top => ∃ i, i < nx ∧ F = hNo nx i ny

/-- The side a facet is on. -/
def sideOf (nx : Nat) (F : Int) : Side :=
  let m := (F / 3).toNat
  if F % 3 = 1 then if m % (nx + 1) = 0 then .left else .right
  else if m / (nx + 1) = 0 then .bottom else .top

theorem sideOf_of (hnx : 1 ≤ nx) (hny : 1 ≤ ny) {F : Int} {sd : Side} (h : OnSide nx ny F sd) : sideOf nx F = sd := by
  have hv : ∀ i j, i ≤ nx → sideOf nx (vNo nx i j) = if i = 0 then .left else .right := by
    intro i j hi
    have h1 : vNo nx i j / 3 = ((j * (nx + 1) + i : Nat) : Int) := by unfold vNo; omega
    have h2 : vNo nx i j % 3 = 1 := by unfold vNo; omega
    have h4 : (j * (nx + 1) + i) % (nx + 1) = i := by
      rw [Nat.mul_comm, Nat.mul_add_mod]; exact Nat.mod_eq_of_lt (by omega)
    simp only [sideOf, h1, h2, Int.toNat_natCast, h4, if_true]
  have hh : ∀ i j, i < nx → sideOf nx (hNo nx i j) = if j = 0 then .bottom else .top := by
    intro i j hi
    have h1 : hNo nx i j / 3 = ((j * (nx + 1) + i : Nat) : Int) := by unfold hNo; omega
    have h2 : hNo nx i j % 3 = 0 := by unfold hNo; omega
    have h5 : (j * (nx + 1) + i) / (nx + 1) = j := by
      rw [Nat.mul_comm, Nat.mul_add_div (by omega), Nat.div_eq_of_lt (by omega), Nat.add_zero]
    simp only [sideOf, h1, h2, Int.toNat_natCast, h5]
    rw [if_neg (by omega)]
  cases sd <;> obtain ⟨a, ha, rfl⟩ := h
  · rw [hv 0 a (by omega), if_pos rfl]
  · rw [hv nx a (le_refl _), if_neg (by omega)]
  · rw [hh a 0 ha, if_pos rfl]
  · rw [hh a ny ha, if_neg (by omega)]

/-- The outer edges. -/
theorem across_none {e : Edge} (hi : i < nx) (hj : j < ny) (h : across d nx ny i j s e = -1) :
    ∃ sd, OnSide nx ny (edgeNo nx i j e) sd ∧
      (∀ a c b s', normal (K := K) a c b s' e = (walls (K := K) 0 0 0 0 (fun _ => true) sd).n) ∧
      ∀ (m : Side → Bool) (q : Vec K 2), OnEdge (x i) (x (i + 1)) (y j) (y (j + 1)) q (d i j) e →
        (walls (x 0) (x nx) (y 0) (y ny) m sd).on q := by
  cases e <;> simp only [across] at h
  · split at h
    · rename_i h0
      subst h0
      exact ⟨.left, ⟨j, hj, rfl⟩, fun _ _ _ _ => rfl, fun m q hq => hq.1⟩
    · exact absurd h (cellNo_ne _ _ _ _)
  · split at h
    · rename_i h0
      subst h0
      exact ⟨.right, ⟨j, hj, rfl⟩, fun _ _ _ _ => rfl, fun m q hq => hq.1⟩
    · exact absurd h (cellNo_ne _ _ _ _)
  · split at h
    · rename_i h0
      subst h0
      exact ⟨.bottom, ⟨i, hi, rfl⟩, fun _ _ _ _ => rfl, fun m q hq => hq.1⟩
    · exact absurd h (cellNo_ne _ _ _ _)
  · split at h
    · rename_i h0
      subst h0
      exact ⟨.top, ⟨i, hi, rfl⟩, fun _ _ _ _ => rfl, fun m q hq => hq.1⟩
    · exact absurd h (cellNo_ne _ _ _ _)
  · exact absurd h (cellNo_ne _ _ _ _)

theorem walls_n (a b c e : K) (m : Side → Bool) (sd : Side) :
    (walls a b c e m sd).n = (walls (K := K) 0 0 0 0 (fun _ => true) sd).n := by cases sd <;> rfl

theorem walls_unit (a b c e : K) (m : Side → Bool) (sd : Side) :
    dot (walls a b c e m sd).n (walls a b c e m sd).n = 1 := by cases sd <;> simp [walls, dotP]

theorem walls_mirror (a b c e : K) (m : Side → Bool) (sd : Side) : (walls a b c e m sd).mirror = m sd := by
  cases sd <;> rfl

theorem boundary_inv {marker : Int → Int} {F : Int} {n : Vec K 2} (h : (mesh x y d nx ny marker).Boundary F n) :
    ∃ sd, OnSide nx ny F sd ∧ ∀ a b c e m, (walls (K := K) a b c e m sd).n = n := by
  obtain ⟨ci, c, k, hc, hF, hN, hn⟩ := h
  obtain ⟨i, j, s, hi, hj, -, rfl⟩ := cell_inv hc
  obtain ⟨e, he, hac⟩ := map_get hN
  obtain ⟨e', he', hno⟩ := map_get hn
  obtain ⟨e'', he'', hF'⟩ := map_get hF
  rw [he] at he' he''
  cases he'
  cases he''
  obtain ⟨sd, h1, h2, -⟩ := across_none (x := x) (y := y) hi hj hac
  exact ⟨sd, hF' ▸ h1, fun a b c e m => by rw [walls_n, ← h2, hno]⟩

theorem boundary_of {marker : Int → Int} {F : Int} {sd : Side} (hnx : 1 ≤ nx) (hny : 1 ≤ ny)
    (h : OnSide nx ny F sd) : ∃ n, (mesh x y d nx ny marker).Boundary F n := by
  have key : ∀ (i j : Nat) (e : Edge), i < nx → j < ny → edgeNo nx i j e = F →
      across d nx ny i j (owner (d i j) e) e = -1 → ∃ n, (mesh x y d nx ny marker).Boundary F n := by
    intro i j e hi hj hF ha
    have he := edges_place (d i j) e
    refine ⟨normal (x (i + 1) - x i) (y (j + 1) - y j) (d i j) (owner (d i j) e) e,
      cellNo nx i j (owner (d i j) e), _, place (d i j) e, cell_at hi hj marker, ?_, ?_, ?_⟩
    · simp only [cell, List.getElem?_map, he, Option.map_some, hF]
    · simp only [cell, List.getElem?_map, he, Option.map_some, ha]
    · simp only [cell, List.getElem?_map, he, Option.map_some]
  cases sd <;> obtain ⟨a, ha, rfl⟩ := h
  · exact key 0 a .left (by omega) ha rfl (by simp [across])
  · exact key (nx - 1) a .right (by omega) ha (by simp [edgeNo, Nat.sub_add_cancel hnx])
      (by simp [across, Nat.sub_add_cancel hnx])
  · exact key a 0 .bottom ha (by omega) rfl (by simp [across])
  · exact key a (ny - 1) .top ha (by omega) (by simp [edgeNo, Nat.sub_add_cancel hny])
      (by simp [across, Nat.sub_add_cancel hny])

theorem not_interior {marker : Int → Int} {F : Int} {sd : Side} (h : OnSide nx ny F sd) :
    ¬ (mesh x y d nx ny marker).Interior F := by
  rintro ⟨ci, c, k, cj, hc, hF, hN, hcj⟩
  obtain ⟨i, j, s, hi, hj, -, rfl⟩ := cell_inv hc
  obtain ⟨e, he, hac⟩ := map_get hN
  obtain ⟨e'', he'', hF'⟩ := map_get hF
  rw [he] at he''
  cases he''
  have fh : ∀ {i j i' j'}, i < nx → j ≤ ny → i' < nx → j' ≤ ny → hNo nx i j = hNo nx i' j' → i = i' ∧ j = j' := by
    intro i j i' j' a b a' b' h
    have h1 := facetOf_h (x := x) (y := y) (d := d) a b
    rw [h, facetOf_h a' b'] at h1
    cases h1; exact ⟨rfl, rfl⟩
  have fv : ∀ {i j i' j'}, i ≤ nx → j < ny → i' ≤ nx → j' < ny → vNo nx i j = vNo nx i' j' → i = i' ∧ j = j' := by
    intro i j i' j' a b a' b' h
    have h1 := facetOf_v (x := x) (y := y) (d := d) a b
    rw [h, facetOf_v a' b'] at h1
    cases h1; exact ⟨rfl, rfl⟩
  have hv : ∀ i j i' j', hNo nx i j ≠ vNo nx i' j' := by intro i j i' j'; unfold hNo vNo; omega
  have hd : ∀ i j i' j', hNo nx i j ≠ dNo nx i' j' := by intro i j i' j'; unfold hNo dNo; omega
  have hvd : ∀ i j i' j', vNo nx i j ≠ dNo nx i' j' := by intro i j i' j'; unfold vNo dNo; omega
  subst hF'
  cases sd <;> obtain ⟨a, ha, hF⟩ := h <;> cases e <;> simp only [edgeNo] at hF <;>
    simp only [across] at hac
  · obtain ⟨rfl, -⟩ := fv (by omega) hj (by omega) ha hF; exact hcj (by simpa using hac.symm)
  · obtain ⟨h0, -⟩ := fv (by omega) hj (by omega) ha hF; omega
  · exact hv _ _ _ _ hF
  · exact hv _ _ _ _ hF
  · exact hvd _ _ _ _ hF.symm
  · obtain ⟨h0, -⟩ := fv (by omega) hj (by omega) ha hF; omega
  · obtain ⟨h0, -⟩ := fv (by omega) hj (by omega) ha hF
    rw [if_pos h0] at hac; exact hcj hac.symm
  · exact hv _ _ _ _ hF
  · exact hv _ _ _ _ hF
  · exact hvd _ _ _ _ hF.symm
  · exact hv _ _ _ _ hF.symm
  · exact hv _ _ _ _ hF.symm
  · obtain ⟨-, rfl⟩ := fh hi (by omega) ha (by omega) hF; exact hcj (by simpa using hac.symm)
  · obtain ⟨-, h0⟩ := fh hi (by omega) ha (by omega) hF; omega
  · exact hd _ _ _ _ hF.symm
  · exact hv _ _ _ _ hF.symm
  · exact hv _ _ _ _ hF.symm
  · obtain ⟨-, h0⟩ := fh hi (by omega) ha (by omega) hF; omega
  · obtain ⟨-, h0⟩ := fh hi (by omega) ha (by omega) hF
    rw [if_pos h0] at hac; exact hcj hac.symm
  · exact hd _ _ _ _ hF.symm

/-- The sides of the rectangle are its walls. -/
theorem walled (hnx : 1 ≤ nx) (hny : 1 ≤ ny) (hx : ∀ i, i < nx → x i < x (i + 1))
    (hy : ∀ j, j < ny → y j < y (j + 1)) (marker : Int → Int) (m : Side → Bool) :
    Walled (mesh x y d nx ny marker) (walls (x 0) (x nx) (y 0) (y ny) m) (sideOf nx) := by
  refine ⟨?_, ?_, ?_⟩
  · intro F n hB
    obtain ⟨sd, h1, h2⟩ := boundary_inv hB
    rw [sideOf_of hnx hny h1]; exact h2 _ _ _ _ _
  · intro F n hB
    obtain ⟨sd, h1, h2⟩ := boundary_inv hB
    rw [← h2 0 0 0 0 (fun _ => true)]; exact walls_unit _ _ _ _ _ _
  · intro ci c k F q hc hN hF hq hp
    obtain ⟨i, j, s, hi, hj, -, rfl⟩ := cell_inv hc
    obtain ⟨e, he, hac⟩ := map_get hN
    obtain ⟨e'', he'', hF'⟩ := map_get hF
    rw [he] at he''
    cases he''
    obtain ⟨sd, h1, -, h2⟩ := across_none (x := x) (y := y) hi hj hac
    rw [hF'] at h1
    rw [sideOf_of hnx hny h1]
    exact h2 m q (onEdge_of (hx i hi) (hy j hj) he hq hp)

/-- The points of the mesh are those of the rectangle. -/
theorem points (hnx : 1 ≤ nx) (hny : 1 ≤ ny) (hx : ∀ i, i < nx → x i < x (i + 1))
    (hy : ∀ j, j < ny → y j < y (j + 1)) (marker : Int → Int) (q : Vec K 2) :
    (mesh x y d nx ny marker).Points q ↔ inRect x y nx ny q = true := by
  constructor
  · rintro ⟨ci, c, hc, hq⟩
    exact (convex hx hy marker).cells ci c q hc hq
  · intro hq
    obtain ⟨ci, hci⟩ := covers (d := d) hnx hny hx hy marker hq
    unfold Mesh.isInside Mesh.lookup at hci
    cases hc : (mesh x y d nx ny marker).cell ci with
    | none => rw [hc] at hci; cases hci
    | some c =>
      rw [hc] at hci
      obtain ⟨i, j, s, hi, hj, -, rfl⟩ := cell_inv hc
      simp only [bind, Except.bind, pure, Except.pure, Except.ok.injEq] at hci
      exact ⟨ci, _, hc, (contains_iff (cell_regular (hx i hi) (hy j hj)) q).1 hci⟩

end Rect
end Dt
