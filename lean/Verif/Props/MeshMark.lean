import Verif.Spec.MeshMark
import Mathlib.Tactic.Linarith
import Mathlib.Tactic.Ring
import Mathlib.Tactic.FieldSimp
import Mathlib.Tactic.NormNum

/-!
# Properties of boundary tags (C82)
-/

set_option linter.unusedSectionVars false

namespace Dt
namespace Mark
open Spec.Mark
variable {K : Type} [Field K] [LinearOrder K] [IsStrictOrderedRing K] {ι : Type}

theorem dist_eq (a b : K) : dist a b = |a - b| := by
  unfold dist
  split
  · rename_i h; rw [abs_of_neg h]
  · rename_i h; rw [abs_of_nonneg (not_lt.1 h)]

theorem tol_pos : (0 : K) < tol := by unfold tol; positivity

theorem near_self (v : K) : dist v v < tol := by
  rw [dist_eq]; simpa using tol_pos

theorem get_of_mem {d : Dict} (hd : IsDict d) {name : String} {t : Int} (h : (name, t) ∈ d) :
    d.get name = .ok t := by
  unfold Dict.get
  induction d with
  | nil => cases h
  | cons e d ih =>
    simp only [IsDict, List.map_cons, List.nodup_cons] at hd
    by_cases he : e.1 = name
    · have : e.2 = t := by
        rcases List.mem_cons.1 h with h | h
        · rw [← h]
        · exact absurd (List.mem_map.2 ⟨_, h, rfl⟩) (by rw [← he]; exact hd.1)
      simp [he, this]
    · have h' : (name, t) ∈ d := by
        rcases List.mem_cons.1 h with h | h
        · rw [← h] at he; exact absurd rfl he
        · exact h
      have := ih hd.2 h'
      have hb : (e.1 == name) = false := by simpa using he
      rw [List.find?_cons, hb]
      exact this

theorem get_mem {d : Dict} {name : String} {t : Int} (h : d.get name = .ok t) : (name, t) ∈ d := by
  unfold Dict.get at h
  split at h
  · rename_i e he
    have h1 := List.mem_of_find?_eq_some he
    have h2 := List.find?_some he
    simp only [beq_iff_eq] at h2
    cases h
    rw [← h2]
    exact h1
  · cases h

theorem get_error {d : Dict} {name : String} (h : ∀ t, (name, t) ∉ d) : d.get name = .error .key := by
  cases hg : d.get name with
  | ok t => exact absurd (get_mem hg) (h t)
  | error e =>
    unfold Dict.get at hg
    split at hg
    · cases hg
    · cases hg; rfl

/-- The tag a facet ends up with. -/
def inSub (sub : SubDomain K) (f : Facet K) : Bool := f.pts.all (fun p => sub p f.exterior)

theorem mark_ok (sub : SubDomain K) (facet : ι → Facet K) (m : ι → Int) {t : Int} (ht : 0 ≤ t) :
    sub.mark facet m t = .ok (fun f => if inSub sub (facet f) then t else m f) := by
  unfold SubDomain.mark inSub
  rw [if_neg (by omega)]

theorem mark_neg (sub : SubDomain K) (facet : ι → Facet K) (m : ι → Int) {t : Int} (ht : t < 0) :
    sub.mark facet m t = .error .type := by
  unfold SubDomain.mark
  rw [if_pos ht]

/-- The markers made by `markTwo` and `markFour`. -/
abbrev twoMark (facet : ι → Facet K) (a b : K) (ta tb : Int) : ι → Int :=
  fun f => if inSub (xBoundary b) (facet f) then tb
      else if inSub (xBoundary a) (facet f) then ta else 0

abbrev fourMark (facet : ι → Facet K) (a b c e : K) (t1 t2 t3 t4 : Int) : ι → Int :=
  fun f => if inSub (yBoundary e) (facet f) then t4
      else if inSub (yBoundary c) (facet f) then t3 else if inSub (xBoundary b) (facet f) then t2
      else if inSub (xBoundary a) (facet f) then t1 else 0

theorem markTwo_ok (facet : ι → Facet K) {d : Dict} (hd : IsDict d) {lo hi : String} {a b : K}
    {ta tb : Int} (h1 : (lo, ta) ∈ d) (h2 : (hi, tb) ∈ d) (ha : 0 ≤ ta) (hb : 0 ≤ tb) :
    markTwo facet d lo hi a b = .ok (fun f => if inSub (xBoundary b) (facet f) then tb
      else if inSub (xBoundary a) (facet f) then ta else 0) := by
  unfold markTwo
  rw [get_of_mem hd h1, get_of_mem hd h2]
  simp only [bind, Except.bind]
  rw [mark_ok _ _ _ ha]
  simp only
  rw [mark_ok _ _ _ hb]
  rfl

theorem markFour_ok (facet : ι → Facet K) {d : Dict} (hd : IsDict d) {n1 n2 n3 n4 : String} {a b c e : K}
    {t1 t2 t3 t4 : Int} (h1 : (n1, t1) ∈ d) (h2 : (n2, t2) ∈ d) (h3 : (n3, t3) ∈ d) (h4 : (n4, t4) ∈ d)
    (p1 : 0 ≤ t1) (p2 : 0 ≤ t2) (p3 : 0 ≤ t3) (p4 : 0 ≤ t4) :
    markFour facet d n1 n2 n3 n4 a b c e = .ok (fun f => if inSub (yBoundary e) (facet f) then t4
      else if inSub (yBoundary c) (facet f) then t3 else if inSub (xBoundary b) (facet f) then t2
      else if inSub (xBoundary a) (facet f) then t1 else 0) := by
  unfold markFour
  rw [get_of_mem hd h1, get_of_mem hd h2, get_of_mem hd h3, get_of_mem hd h4]
  simp only [bind, Except.bind]
  rw [mark_ok _ _ _ p1]
  simp only
  rw [mark_ok _ _ _ p2]
  simp only
  rw [mark_ok _ _ _ p3]
  simp only
  rw [mark_ok _ _ _ p4]
  rfl

/-! ### Geometry of the grids -/

theorem gridPoint_zero (a b : K) (n : Nat) : gridPoint a b n 0 = a := by simp [gridPoint]

theorem gridPoint_last (a b : K) {n : Nat} (hn : 1 ≤ n) : gridPoint a b n n = b := by
  have : (n : K) ≠ 0 := by exact_mod_cast (by omega : n ≠ 0)
  unfold gridPoint
  field_simp
  ring

theorem gridPoint_succ (a b : K) (n i : Nat) :
    gridPoint a b n (i + 1) = gridPoint a b n i + (b - a) / n := by
  unfold gridPoint
  push_cast
  ring

theorem gridPoint_low {a b : K} (h : a ≤ b) (n i : Nat) : a ≤ gridPoint a b n i := by
  unfold gridPoint
  have : 0 ≤ (i : K) * ((b - a) / n) :=
    mul_nonneg (Nat.cast_nonneg _) (div_nonneg (by linarith) (Nat.cast_nonneg _))
  linarith

theorem gridPoint_high {a b : K} (h : a ≤ b) {n i : Nat} (hi : i < n) :
    gridPoint a b n i + (b - a) / n ≤ b := by
  have hl := gridPoint_last a b (n := n) (by omega)
  have : gridPoint a b n i + (b - a) / n ≤ gridPoint a b n n := by
    unfold gridPoint
    have h1 : ((i : K) + 1) * ((b - a) / n) ≤ (n : K) * ((b - a) / n) := by
      apply mul_le_mul_of_nonneg_right
      · exact_mod_cast hi
      · exact div_nonneg (by linarith) (Nat.cast_nonneg _)
    linarith
  rwa [hl] at this

theorem step_le {a b : K} (h : a ≤ b) {n : Nat} (hn : 1 ≤ n) : (b - a) / n ≤ b - a := by
  have := gridPoint_high h (n := n) (i := 0) (by omega)
  rw [gridPoint_zero] at this
  linarith

theorem mid_near {a b v t : K} (ha : |a - v| < t) (hb : |b - v| < t) : |(a + b) / 2 - v| < t := by
  rw [abs_lt] at *
  constructor <;> linarith [ha.1, ha.2, hb.1, hb.2]

theorem inSub_x (v : K) (a b : K × K) (e : Bool) : inSub (xBoundary v) (edge a b e) = true ↔
    e = true ∧ |a.1 - v| < tol ∧ |b.1 - v| < tol := by
  simp only [inSub, edge, xBoundary, List.all_cons, List.all_nil, Bool.and_true, Bool.and_eq_true,
    decide_eq_true_eq, dist_eq]
  constructor
  · rintro ⟨⟨h, h1⟩, ⟨_, h2⟩, _, _⟩
    exact ⟨h, h1, h2⟩
  · rintro ⟨h, h1, h2⟩
    exact ⟨⟨h, h1⟩, ⟨h, h2⟩, h, mid_near h1 h2⟩

theorem inSub_y (v : K) (a b : K × K) (e : Bool) : inSub (yBoundary v) (edge a b e) = true ↔
    e = true ∧ |a.2 - v| < tol ∧ |b.2 - v| < tol := by
  simp only [inSub, edge, yBoundary, List.all_cons, List.all_nil, Bool.and_true, Bool.and_eq_true,
    decide_eq_true_eq, dist_eq]
  constructor
  · rintro ⟨⟨h, h1⟩, ⟨_, h2⟩, _, _⟩
    exact ⟨h, h1, h2⟩
  · rintro ⟨h, h1, h2⟩
    exact ⟨⟨h, h1⟩, ⟨h, h2⟩, h, mid_near h1 h2⟩

theorem inSub_line (v : K) (x : Nat → K) (n i : Nat) : inSub (xBoundary v) (lineFacet x n i) = true ↔
    (i = 0 ∨ i = n) ∧ |x i - v| < tol := by
  simp only [inSub, lineFacet, xBoundary, List.all_cons, List.all_nil, Bool.and_true, Bool.and_eq_true,
    decide_eq_true_eq, dist_eq]

theorem liesOn_x (name : String) (v : K) (a b : K × K) (e : Bool) :
    LiesOn (edge a b e) (atX name v) ↔ e = true ∧ a.1 = v ∧ b.1 = v := by
  simp only [LiesOn, edge, atX, List.mem_cons, List.not_mem_nil, or_false, forall_eq_or_imp, forall_eq]
  constructor
  · rintro ⟨h, h1, h2, _⟩; exact ⟨h, h1, h2⟩
  · rintro ⟨h, h1, h2⟩; refine ⟨h, h1, h2, ?_⟩; rw [h1, h2]; ring

theorem liesOn_y (name : String) (v : K) (a b : K × K) (e : Bool) :
    LiesOn (edge a b e) (atY name v) ↔ e = true ∧ a.2 = v ∧ b.2 = v := by
  simp only [LiesOn, edge, atY, List.mem_cons, List.not_mem_nil, or_false, forall_eq_or_imp, forall_eq]
  constructor
  · rintro ⟨h, h1, h2, _⟩; exact ⟨h, h1, h2⟩
  · rintro ⟨h, h1, h2⟩; refine ⟨h, h1, h2, ?_⟩; rw [h1, h2]; ring

theorem liesOn_line (name : String) (v : K) (x : Nat → K) (n i : Nat) :
    LiesOn (lineFacet x n i) (atX name v) ↔ (i = 0 ∨ i = n) ∧ x i = v := by
  simp only [LiesOn, lineFacet, atX, List.mem_cons, List.not_mem_nil, or_false, forall_eq,
    decide_eq_true_eq]

/-! ### Intervals -/

theorem mem_unique {d : Dict} (hd : IsDict d) {name : String} {s t : Int} (h1 : (name, s) ∈ d)
    (h2 : (name, t) ∈ d) : s = t := by
  have := get_of_mem hd h1
  rw [get_of_mem hd h2] at this
  cases this
  rfl

/-- The marker of an interval whose ends are far enough apart. -/
theorem line_tagged {x : Nat → K} {n : Nat} (hn : 1 ≤ n) {a b : K} (h0 : x 0 = a) (hN : x n = b)
    (hab : tol ≤ b - a) {d : Dict} {lo hi : String} {ta tb : Int} (h1 : (lo, ta) ∈ d)
    (h2 : (hi, tb) ∈ d) :
    Tagged (IsLine n) (lineFacet x n) d [atX lo a, atX hi b]
      (fun f => if inSub (xBoundary b) (lineFacet x n f) then tb
        else if inSub (xBoundary a) (lineFacet x n f) then ta else 0) ∧
    (∀ i ≤ n, (if inSub (xBoundary b) (lineFacet x n i) then tb
        else if inSub (xBoundary a) (lineFacet x n i) then ta else 0) =
        if i = 0 then ta else if i = n then tb else 0) := by
  have ht := tol_pos (K := K)
  have hval : ∀ i ≤ n, (if inSub (xBoundary b) (lineFacet x n i) then tb
        else if inSub (xBoundary a) (lineFacet x n i) then ta else 0) =
        if i = 0 then ta else if i = n then tb else 0 := by
    intro i _
    by_cases hi0 : i = 0
    · subst hi0
      rw [if_neg, if_pos, if_pos rfl]
      · rw [inSub_line]; exact ⟨.inl rfl, by rw [h0]; simpa using ht⟩
      · rw [inSub_line]
        rintro ⟨-, h⟩
        rw [h0, abs_sub_comm, abs_of_nonneg (by linarith)] at h
        linarith
    · rw [if_neg hi0]
      by_cases hin : i = n
      · subst hin
        rw [if_pos, if_pos rfl]
        rw [inSub_line]; exact ⟨.inr rfl, by rw [hN]; simpa using ht⟩
      · rw [if_neg, if_neg, if_neg hin]
        · rw [inSub_line]; rintro ⟨h | h, -⟩ <;> contradiction
        · rw [inSub_line]; rintro ⟨h | h, -⟩ <;> contradiction
  refine ⟨⟨?_, ?_⟩, hval⟩
  · intro i hi s hs hl
    dsimp only
    rw [hval i hi]
    rcases List.mem_cons.1 hs with rfl | hs
    · rw [liesOn_line] at hl
      rcases hl with ⟨rfl | rfl, h⟩
      · rw [if_pos rfl]; exact h1
      · rw [hN] at h; linarith
    · simp only [List.mem_cons, List.not_mem_nil, or_false] at hs
      subst hs
      rw [liesOn_line] at hl
      rcases hl with ⟨rfl | rfl, h⟩
      · rw [h0] at h; linarith
      · rw [if_neg (by omega), if_pos rfl]; exact h2
  · intro i hle hs
    dsimp only
    rw [hval i hle]
    have e1 := hs (atX lo a) (by simp)
    have e2 := hs (atX hi b) (by simp)
    rw [liesOn_line] at e1 e2
    rw [if_neg (fun h => e1 ⟨.inl h, by rw [h]; exact h0⟩),
      if_neg (fun h => e2 ⟨.inr h, by rw [h]; exact hN⟩)]

/-- If the ends are closer than the tolerance the lower one gets the tag of the upper one. -/
theorem line_small {x : Nat → K} {n : Nat} {a b : K} (h0 : x 0 = a) (hle : a ≤ b) (hab : b - a < tol)
    (ta tb : Int) :
    (if inSub (xBoundary b) (lineFacet x n 0) then tb
        else if inSub (xBoundary a) (lineFacet x n 0) then ta else 0) = tb := by
  rw [if_pos]
  rw [inSub_line]
  refine ⟨.inl rfl, ?_⟩
  rw [h0, abs_sub_comm, abs_of_nonneg (by linarith)]
  exact hab

/-! ### Rectangles -/

section
variable {xmin xmax ymin ymax : K} {nx ny : Nat}

theorem far {a b : K} (h : tol ≤ b - a) : ¬ |a - b| < tol := by
  rw [abs_sub_comm, abs_of_nonneg (by linarith [tol_pos (K := K)])]
  exact not_lt.2 h

theorem far' {a b : K} (h : tol ≤ b - a) : ¬ |b - a| < tol := by
  rw [abs_of_nonneg (by linarith [tol_pos (K := K)])]
  exact not_lt.2 h

/-- The tag of every facet of a rectangle. -/
def rectTag (nx ny : Nat) (t1 t2 t3 t4 : Int) : RFacet K → Int
  | .h _ j => if j = 0 then t3 else if j = ny then t4 else 0
  | .v i _ => if i = 0 then t1 else if i = nx then t2 else 0
  | .inner _ _ => 0

theorem rect_val (hx : xmin < xmax) (hy : ymin < ymax) (hnx : 1 ≤ nx) (hny : 1 ≤ ny)
    (hw : tol ≤ xmax - xmin) (hdy : tol ≤ (ymax - ymin) / ny) (t1 t2 t3 t4 : Int)
    (f : RFacet K) (hf : IsRect nx ny f) :
    (if inSub (yBoundary ymax) (rectFacet xmin xmax ymin ymax nx ny f) then t4
      else if inSub (yBoundary ymin) (rectFacet xmin xmax ymin ymax nx ny f) then t3
      else if inSub (xBoundary xmax) (rectFacet xmin xmax ymin ymax nx ny f) then t2
      else if inSub (xBoundary xmin) (rectFacet xmin xmax ymin ymax nx ny f) then t1 else 0) =
    rectTag nx ny t1 t2 t3 t4 f := by
  have hh : tol ≤ ymax - ymin := hdy.trans (step_le hy.le hny)
  have ht := tol_pos (K := K)
  cases f with
  | inner a b =>
    rw [if_neg, if_neg, if_neg, if_neg]
    · rfl
    all_goals simp [rectFacet, inSub_x, inSub_y]
  | h i j =>
    simp only [rectFacet, rectTag, inSub_y, inSub_x, decide_eq_true_eq, and_self]
    by_cases hj0 : j = 0
    · subst hj0
      rw [gridPoint_zero, if_neg (fun h => far hh h.2), if_pos ⟨.inl rfl, by simpa using ht⟩, if_pos rfl]
    · rw [if_neg hj0]
      by_cases hjn : j = ny
      · subst hjn
        rw [gridPoint_last _ _ hny, if_pos ⟨.inr rfl, by simpa using ht⟩, if_pos rfl]
      · have hno : ¬ (j = 0 ∨ j = ny) := by omega
        rw [if_neg (fun h => hno h.1), if_neg (fun h => hno h.1), if_neg (fun h => hno h.1),
          if_neg (fun h => hno h.1), if_neg hjn]
  | v i j =>
    simp only [rectFacet, rectTag, inSub_y, inSub_x, decide_eq_true_eq, and_self]
    have h4 : ¬ |gridPoint ymin ymax ny j - ymax| < tol :=
      far (by have := gridPoint_high hy.le hf.2; linarith)
    have h3 : ¬ |gridPoint ymin ymax ny (j + 1) - ymin| < tol := by
      rw [gridPoint_succ]
      exact far' (by have := gridPoint_low hy.le ny j; linarith)
    rw [if_neg (fun h => h4 h.2.1), if_neg (fun h => h3 h.2.2)]
    by_cases hi0 : i = 0
    · subst hi0
      rw [gridPoint_zero, if_neg (fun h => far hw h.2), if_pos ⟨.inl rfl, by simpa using ht⟩, if_pos rfl]
    · rw [if_neg hi0]
      by_cases hin : i = nx
      · subst hin
        rw [gridPoint_last _ _ hnx, if_pos ⟨.inr rfl, by simpa using ht⟩, if_pos rfl]
      · have hno : ¬ (i = 0 ∨ i = nx) := by omega
        rw [if_neg (fun h => hno h.1), if_neg (fun h => hno h.1), if_neg hin]

/-- The facet `v 0 0`, at the lower end of the side `x = xmin`. -/
theorem rect_corner (hx : xmin < xmax) (hy : ymin < ymax) {t1 t2 t3 t4 : Int} (h12 : t1 ≠ t2)
    (h13 : t1 ≠ t3) (h14 : t1 ≠ t4)
    (h : (if inSub (yBoundary ymax) (rectFacet xmin xmax ymin ymax nx ny (.v 0 0)) then t4
      else if inSub (yBoundary ymin) (rectFacet xmin xmax ymin ymax nx ny (.v 0 0)) then t3
      else if inSub (xBoundary xmax) (rectFacet xmin xmax ymin ymax nx ny (.v 0 0)) then t2
      else if inSub (xBoundary xmin) (rectFacet xmin xmax ymin ymax nx ny (.v 0 0)) then t1 else 0) = t1) :
    tol ≤ xmax - xmin ∧ tol ≤ (ymax - ymin) / ny := by
  have ht := tol_pos (K := K)
  have hn3 : ¬ inSub (yBoundary ymin) (rectFacet xmin xmax ymin ymax nx ny (.v 0 0)) = true := by
    intro h3
    rw [if_pos h3] at h
    split at h
    · exact h14 h.symm
    · exact h13 h.symm
  have hn2 : ¬ inSub (xBoundary xmax) (rectFacet xmin xmax ymin ymax nx ny (.v 0 0)) = true := by
    intro h2
    rw [if_neg hn3, if_pos h2] at h
    split at h
    · exact h14 h.symm
    · exact h12 h.symm
  simp only [rectFacet, inSub_x, inSub_y, true_or, decide_true, true_and, and_self, gridPoint_succ,
    gridPoint_zero] at hn3 hn2
  constructor
  · by_contra hc
    apply hn2
    rw [abs_sub_comm, abs_of_nonneg (by linarith)]
    exact not_le.1 hc
  · by_contra hc
    apply hn3
    refine ⟨by simpa using ht, ?_⟩
    rw [abs_of_nonneg (by
      have : 0 ≤ (ymax - ymin) / (ny : K) := div_nonneg (by linarith) (Nat.cast_nonneg _)
      linarith)]
    have := not_le.1 hc
    linarith

/-- What it means for a marker of a rectangle to be right. -/
theorem rect_tagged (hx : xmin < xmax) (hy : ymin < ymax) (hnx : 1 ≤ nx) (hny : 1 ≤ ny) {d : Dict}
    {n1 n2 n3 n4 : String} {t1 t2 t3 t4 : Int} (h1 : (n1, t1) ∈ d) (h2 : (n2, t2) ∈ d)
    (h3 : (n3, t3) ∈ d) (h4 : (n4, t4) ∈ d) {m : RFacet K → Int}
    (hm : ∀ f, IsRect nx ny f → m f = rectTag nx ny t1 t2 t3 t4 f) :
    Tagged (IsRect nx ny) (rectFacet xmin xmax ymin ymax nx ny) d
      [atX n1 xmin, atX n2 xmax, atY n3 ymin, atY n4 ymax] m := by
  have hsx : 0 < (xmax - xmin) / (nx : K) := div_pos (by linarith) (by exact_mod_cast hnx)
  have hsy : 0 < (ymax - ymin) / (ny : K) := div_pos (by linarith) (by exact_mod_cast hny)
  refine ⟨?_, ?_⟩
  · intro f hf s hs hl
    rw [hm f hf]
    simp only [List.mem_cons, List.not_mem_nil, or_false] at hs
    cases f with
    | inner a b => exact absurd hl.1 (by simp [rectFacet, edge])
    | h i j =>
      rcases hs with rfl | rfl | rfl | rfl
      · simp only [rectFacet, liesOn_x, gridPoint_succ] at hl; linarith [hl.2.1, hl.2.2]
      · simp only [rectFacet, liesOn_x, gridPoint_succ] at hl; linarith [hl.2.1, hl.2.2]
      · simp only [rectFacet, liesOn_y, decide_eq_true_eq] at hl
        have : j = 0 := by
          rcases hl.1 with h | h
          · exact h
          · rw [h, gridPoint_last _ _ hny] at hl; linarith [hl.2.1]
        simp only [rectTag, this, if_true]; exact h3
      · simp only [rectFacet, liesOn_y, decide_eq_true_eq] at hl
        have : j ≠ 0 := by
          intro h
          rw [h, gridPoint_zero] at hl; linarith [hl.2.1]
        have hj : j = ny := hl.1.resolve_left this
        simp only [rectTag]
        rw [if_neg this, if_pos hj]; exact h4
    | v i j =>
      rcases hs with rfl | rfl | rfl | rfl
      · simp only [rectFacet, liesOn_x, decide_eq_true_eq] at hl
        have : i = 0 := by
          rcases hl.1 with h | h
          · exact h
          · rw [h, gridPoint_last _ _ hnx] at hl; linarith [hl.2.1]
        simp only [rectTag, this, if_true]; exact h1
      · simp only [rectFacet, liesOn_x, decide_eq_true_eq] at hl
        have : i ≠ 0 := by
          intro h
          rw [h, gridPoint_zero] at hl; linarith [hl.2.1]
        have hj : i = nx := hl.1.resolve_left this
        simp only [rectTag]
        rw [if_neg this, if_pos hj]; exact h2
      · simp only [rectFacet, liesOn_y, gridPoint_succ] at hl; linarith [hl.2.1, hl.2.2]
      · simp only [rectFacet, liesOn_y, gridPoint_succ] at hl; linarith [hl.2.1, hl.2.2]
  · intro f hf hs
    rw [hm f hf]
    have e1 := hs (atX n1 xmin) (by simp)
    have e2 := hs (atX n2 xmax) (by simp)
    have e3 := hs (atY n3 ymin) (by simp)
    have e4 := hs (atY n4 ymax) (by simp)
    cases f with
    | inner a b => rfl
    | h i j =>
      simp only [rectFacet, liesOn_y, decide_eq_true_eq] at e3 e4
      simp only [rectTag]
      rw [if_neg, if_neg]
      · intro h
        rw [h, gridPoint_last _ _ hny] at e4
        exact e4 ⟨.inr rfl, rfl, rfl⟩
      · intro h
        rw [h, gridPoint_zero] at e3
        exact e3 ⟨.inl rfl, rfl, rfl⟩
    | v i j =>
      simp only [rectFacet, liesOn_x, decide_eq_true_eq] at e1 e2
      simp only [rectTag]
      rw [if_neg, if_neg]
      · intro h
        rw [h, gridPoint_last _ _ hnx] at e2
        exact e2 ⟨.inr rfl, rfl, rfl⟩
      · intro h
        rw [h, gridPoint_zero] at e1
        exact e1 ⟨.inl rfl, rfl, rfl⟩

end

theorem circle_field_tagged {xmin xmax ymin ymax : K} {nx ny : Nat} (hx : xmin < xmax) (hnx : 1 ≤ nx)
    (hdx : tol ≤ (xmax - xmin) / nx) {d : Dict}
    {n1 n2 : String} {t1 t2 : Int} (h1 : (n1, t1) ∈ d) (h2 : (n2, t2) ∈ d) :
    Tagged (IsRect nx ny) (rectFacet xmin xmax ymin ymax nx ny) d [atX n1 xmin, atX n2 xmax]
      (fun f => if inSub (xBoundary xmax) (rectFacet xmin xmax ymin ymax nx ny f) then t2
        else if inSub (xBoundary xmin) (rectFacet xmin xmax ymin ymax nx ny f) then t1 else 0) := by
  have hw : tol ≤ xmax - xmin := hdx.trans (step_le hx.le hnx)
  have ht := tol_pos (K := K)
  have hval : ∀ f, IsRect nx ny f →
      (if inSub (xBoundary xmax) (rectFacet xmin xmax ymin ymax nx ny f) then t2
        else if inSub (xBoundary xmin) (rectFacet xmin xmax ymin ymax nx ny f) then t1 else 0) =
      (match f with | .v i _ => if i = 0 then t1 else if i = nx then t2 else 0 | _ => 0) := by
    intro f hf
    cases f with
    | inner a b =>
      rw [if_neg, if_neg]
      all_goals simp [rectFacet, inSub_x]
    | h i j =>
      simp only [rectFacet, inSub_x, decide_eq_true_eq]
      have h4 : ¬ |gridPoint xmin xmax nx i - xmax| < tol :=
        far (by have := gridPoint_high hx.le hf.1; linarith)
      have h3 : ¬ |gridPoint xmin xmax nx (i + 1) - xmin| < tol := by
        rw [gridPoint_succ]
        exact far' (by have := gridPoint_low hx.le nx i; linarith)
      rw [if_neg (fun h => h4 h.2.1), if_neg (fun h => h3 h.2.2)]
    | v i j =>
      simp only [rectFacet, inSub_x, decide_eq_true_eq, and_self]
      by_cases hi0 : i = 0
      · subst hi0
        rw [gridPoint_zero, if_neg (fun h => far hw h.2), if_pos ⟨.inl rfl, by simpa using ht⟩, if_pos rfl]
      · rw [if_neg hi0]
        by_cases hin : i = nx
        · subst hin
          rw [gridPoint_last _ _ hnx, if_pos ⟨.inr rfl, by simpa using ht⟩, if_pos rfl]
        · have hno : ¬ (i = 0 ∨ i = nx) := by omega
          rw [if_neg (fun h => hno h.1), if_neg (fun h => hno h.1), if_neg hin]
  refine ⟨?_, ?_⟩
  · intro f hf s hs hl
    dsimp only
    rw [hval f hf]
    simp only [List.mem_cons, List.not_mem_nil, or_false] at hs
    have hsx : 0 < (xmax - xmin) / (nx : K) := lt_of_lt_of_le ht hdx
    cases f with
    | inner a b => exact absurd hl.1 (by simp [rectFacet, edge])
    | h i j =>
      rcases hs with rfl | rfl <;>
      · simp only [rectFacet, liesOn_x, gridPoint_succ] at hl; linarith [hl.2.1, hl.2.2]
    | v i j =>
      rcases hs with rfl | rfl
      · simp only [rectFacet, liesOn_x, decide_eq_true_eq] at hl
        have : i = 0 := by
          rcases hl.1 with h | h
          · exact h
          · rw [h, gridPoint_last _ _ hnx] at hl; linarith [hl.2.1]
        simp only [this, if_true]; exact h1
      · simp only [rectFacet, liesOn_x, decide_eq_true_eq] at hl
        have : i ≠ 0 := by
          intro h
          rw [h, gridPoint_zero] at hl; linarith [hl.2.1]
        have hj : i = nx := hl.1.resolve_left this
        simp only
        rw [if_neg this, if_pos hj]; exact h2
  · intro f hf hs
    dsimp only
    rw [hval f hf]
    have e1 := hs (atX n1 xmin) (by simp)
    have e2 := hs (atX n2 xmax) (by simp)
    cases f with
    | inner a b => rfl
    | h i j => rfl
    | v i j =>
      simp only [rectFacet, liesOn_x, decide_eq_true_eq] at e1 e2
      simp only
      rw [if_neg, if_neg]
      · intro h
        rw [h, gridPoint_last _ _ hnx] at e2
        exact e2 ⟨.inr rfl, rfl, rfl⟩
      · intro h
        rw [h, gridPoint_zero] at e1
        exact e1 ⟨.inl rfl, rfl, rfl⟩

end Mark

open Mark Spec.Mark
variable {K : Type} [Field K] [LinearOrder K] [IsStrictOrderedRing K] {ι : Type}

/-- C82 (radial mesh).  With dictionaries that give `rmin` and `rmax` tags, the markers of the radial
mesh tag the two ends as the dictionaries say and nothing else: vertex 0, which the stretching puts at
`rmin`, and vertex `nr`, which it puts at `rmax`. -/
theorem C82_radial {nr : Nat} (hn : 1 ≤ nr) {fd pd : Dict} (hfd : IsDict fd) (hpd : IsDict pd)
    {fa fb pa pb : Int} (h1 : ("rmin", fa) ∈ fd) (h2 : ("rmax", fb) ∈ fd) (h3 : ("rmin", pa) ∈ pd)
    (h4 : ("rmax", pb) ∈ pd) (g1 : 0 ≤ fa) (g2 : 0 ≤ fb) (g3 : 0 ≤ pa) (g4 : 0 ≤ pb) :
    ∃ fm pm, createRadial (K := K) nr (some fd) (some pd) = .ok ⟨some fm, some pm⟩ ∧
      Tagged (IsLine nr) (lineFacet (K := K) (Radial.unitVertex nr) nr) fd
        [atX "rmin" 0, atX "rmax" 1] fm ∧
      Tagged (IsLine nr) (lineFacet (K := K) (Radial.unitVertex nr) nr) pd
        [atX "rmin" 0, atX "rmax" 1] pm ∧
      (∀ i ≤ nr, pm i = if i = 0 then pa else if i = nr then pb else 0) ∧
      ∀ rmin rmax : K, ∀ pw : K → K, pw 0 = 0 → pw 1 = 1 →
        Radial.vertex rmin rmax pw nr 0 = rmin ∧ Radial.vertex rmin rmax pw nr nr = rmax := by
  have hv0 : (Radial.unitVertex nr 0 : K) = 0 := by simp [Radial.unitVertex]
  have hvn : (Radial.unitVertex nr nr : K) = 1 := by
    unfold Radial.unitVertex
    exact div_self (by exact_mod_cast (by omega : nr ≠ 0))
  have htol : (tol : K) ≤ 1 - 0 := by unfold tol; norm_num
  have e1 := line_tagged hn hv0 hvn htol h1 h2
  have e2 := line_tagged hn hv0 hvn htol h3 h4
  refine ⟨_, _, ?_, e1.1, e2.1, e2.2, ?_⟩
  · unfold createRadial ifDict
    simp only [bind, Except.bind, pure, Except.pure]
    rw [markTwo_ok _ hfd h1 h2 g1 g2]
    simp only
    rw [markTwo_ok _ hpd h3 h4 g3 g4]
  · intro rmin rmax pw p0 p1
    unfold Radial.vertex Radial.mapCoordinate
    rw [hv0, hvn, p0, p1]
    constructor <;> ring

/-- C82 (fields on a Cartesian interval).  The ends are tagged as the dictionary says exactly if they are
at least the tolerance apart. -/
theorem C82_interval_field {xmin xmax : K} (hx : xmin < xmax) {nx : Nat} (hn : 1 ≤ nx) {d : Dict}
    (hd : IsDict d) {ta tb : Int} (h1 : ("xmin", ta) ∈ d) (h2 : ("xmax", tb) ∈ d) (g1 : 0 ≤ ta)
    (g2 : 0 ≤ tb) (hne : ta ≠ tb) (pd : Option Dict) :
    ∃ fm pm, createX xmin xmax nx (some d) pd none = .ok ⟨some fm, pm⟩ ∧
      (Tagged (IsLine nx) (lineFacet (gridPoint xmin xmax nx) nx) d [atX "xmin" xmin, atX "xmax" xmax] fm ↔
        (1 / 10 ^ 10 : K) ≤ xmax - xmin) := by
  refine ⟨twoMark (lineFacet (gridPoint xmin xmax nx) nx) xmin xmax ta tb,
    pd.map (fun _ => setAll0), ?_, ?_⟩
  · unfold createX
    simp only [ifDict, bind, Except.bind, pure, Except.pure, Option.isSome_none, Bool.false_eq_true,
      if_false]
    rw [markTwo_ok _ hd h1 h2 g1 g2]
    cases pd <;> rfl
  · constructor
    · intro h
      by_contra hc
      have e1 := h.1 0 (Nat.zero_le _) (atX "xmin" xmin) (by simp)
        ((liesOn_line _ _ _ _ _).2 ⟨.inl rfl, gridPoint_zero _ _ _⟩)
      rw [show twoMark (lineFacet (gridPoint xmin xmax nx) nx) xmin xmax ta tb 0 = tb from
        line_small (gridPoint_zero _ _ _) hx.le (not_le.1 hc) ta tb] at e1
      exact hne (mem_unique hd h1 e1)
    · intro h
      exact (line_tagged hn (gridPoint_zero _ _ _) (gridPoint_last _ _ hn) h h1 h2).1

/-- C82 (rectangle).  The four sides are tagged as the dictionary says exactly if the rectangle is at
least the tolerance wide and its cells are at least the tolerance high. -/
theorem C82_rectangle {xmin xmax ymin ymax : K} (hx : xmin < xmax) (hy : ymin < ymax) {nx ny : Nat}
    (hnx : 1 ≤ nx) (hny : 1 ≤ ny) {d : Dict} (hd : IsDict d) {t1 t2 t3 t4 : Int}
    (h1 : ("xmin", t1) ∈ d) (h2 : ("xmax", t2) ∈ d) (h3 : ("ymin", t3) ∈ d) (h4 : ("ymax", t4) ∈ d)
    (g1 : 0 ≤ t1) (g2 : 0 ≤ t2) (g3 : 0 ≤ t3) (g4 : 0 ≤ t4) (h12 : t1 ≠ t2) (h13 : t1 ≠ t3)
    (h14 : t1 ≠ t4) :
    ∃ pm, createXY xmin xmax ymin ymax nx ny none (some d) none = .ok ⟨none, some pm⟩ ∧
      (Tagged (IsRect nx ny) (rectFacet xmin xmax ymin ymax nx ny) d
        [atX "xmin" xmin, atX "xmax" xmax, atY "ymin" ymin, atY "ymax" ymax] pm ↔
        (1 / 10 ^ 10 : K) ≤ xmax - xmin ∧ (1 / 10 ^ 10 : K) ≤ (ymax - ymin) / ny) := by
  refine ⟨fourMark (rectFacet xmin xmax ymin ymax nx ny) xmin xmax ymin ymax t1 t2 t3 t4, ?_, ?_⟩
  · unfold createXY
    simp only [ifDict, bind, Except.bind, pure, Except.pure, Option.isSome_none, Bool.false_eq_true,
      if_false]
    rw [markFour_ok _ hd h1 h2 h3 h4 g1 g2 g3 g4]
  · constructor
    · intro h
      have e1 := h.1 (.v 0 0) ⟨Nat.zero_le _, hny⟩ (atX "xmin" xmin) (by simp)
        ((liesOn_x _ _ _ _ _).2 ⟨by simp, gridPoint_zero _ _ _, gridPoint_zero _ _ _⟩)
      exact rect_corner hx hy h12 h13 h14 (mem_unique hd e1 h1)
    · rintro ⟨hw, hdy⟩
      exact rect_tagged hx hy hnx hny h1 h2 h3 h4 (rect_val hx hy hnx hny hw hdy t1 t2 t3 t4)

/-- C82 (quarter circle, markers of the rectangle that is bent).  Particle tags are right if the radial
extent and the cells in angle are not smaller than the tolerance, field tags if the radial cells are
not. -/
theorem C82_circle {rmin rmax : K} (hr : rmin < rmax) {nr nt : Nat} (hnr : 1 ≤ nr) (hnt : 1 ≤ nt)
    {fd pd : Dict} (hfd : IsDict fd) (hpd : IsDict pd) {fa fb t1 t2 t3 t4 : Int}
    (f1 : ("rmin", fa) ∈ fd) (f2 : ("rmax", fb) ∈ fd) (e1 : 0 ≤ fa) (e2 : 0 ≤ fb)
    (h1 : ("rmin", t1) ∈ pd) (h2 : ("rmax", t2) ∈ pd) (h3 : ("thmin", t3) ∈ pd) (h4 : ("thmax", t4) ∈ pd)
    (g1 : 0 ≤ t1) (g2 : 0 ≤ t2) (g3 : 0 ≤ t3) (g4 : 0 ≤ t4) :
    ∃ fm pm, createCircle rmin rmax nr nt (some fd) (some pd) = .ok ⟨some fm, some pm⟩ ∧
      ((1 / 10 ^ 10 : K) ≤ (rmax - rmin) / nr → Tagged (IsRect nr nt) (rectFacet rmin rmax 0 1 nr nt) fd
        [atX "rmin" rmin, atX "rmax" rmax] fm) ∧
      ((1 / 10 ^ 10 : K) ≤ rmax - rmin → (1 / 10 ^ 10 : K) ≤ 1 / nt → Tagged (IsRect nr nt) (rectFacet rmin rmax 0 1 nr nt) pd
        [atX "rmin" rmin, atX "rmax" rmax, atY "thmin" 0, atY "thmax" 1] pm) := by
  refine ⟨_, _, ?_, fun h => circle_field_tagged hr hnr h f1 f2, fun hw hd =>
    rect_tagged hr zero_lt_one hnr hnt h1 h2 h3 h4
      (rect_val hr zero_lt_one hnr hnt hw (by rw [sub_zero]; exact hd) t1 t2 t3 t4)⟩
  unfold createCircle
  simp only [ifDict, bind, Except.bind, pure, Except.pure]
  rw [markTwo_ok _ hfd f1 f2 e1 e2]
  simp only
  rw [markFour_ok _ hpd h1 h2 h3 h4 g1 g2 g3 g4]

/-- C82 (dictionaries).  The radial mesh is made exactly if every dictionary that is given has the
names `rmin` and `rmax` with tags that are not negative. -/
theorem C82_accepts {nr : Nat} {fd pd : Option Dict} (hf : ∀ d, fd = some d → IsDict d)
    (hp : ∀ d, pd = some d → IsDict d) :
    (∃ r, createRadial (K := K) nr fd pd = .ok r) ↔
      (∀ d, fd = some d ∨ pd = some d → ∃ a b, ("rmin", a) ∈ d ∧ ("rmax", b) ∈ d ∧ 0 ≤ a ∧ 0 ≤ b) := by
  have key : ∀ (facet : Nat → Facet K) (d : Dict), (∃ r, markTwo facet d "rmin" "rmax" 0 1 = .ok r) →
      ∃ a b, ("rmin", a) ∈ d ∧ ("rmax", b) ∈ d ∧ 0 ≤ a ∧ 0 ≤ b := by
    rintro facet d ⟨r, h⟩
    unfold markTwo at h
    cases h1 : d.get "rmin" with
    | error e => rw [h1] at h; cases h
    | ok a =>
      cases h2 : d.get "rmax" with
      | error e => rw [h1, h2] at h; cases h
      | ok b =>
        rw [h1, h2] at h
        simp only [bind, Except.bind] at h
        have ha : 0 ≤ a := by
          by_contra hc
          rw [mark_neg _ _ _ (by omega)] at h
          cases h
        rw [mark_ok _ _ _ ha] at h
        have hb : 0 ≤ b := by
          by_contra hc
          simp only at h
          rw [mark_neg _ _ _ (by omega)] at h
          cases h
        exact ⟨a, b, get_mem h1, get_mem h2, ha, hb⟩
  have conv : ∀ (facet : Nat → Facet K) (o : Option Dict), (∀ d, o = some d → IsDict d) →
      (∀ d, o = some d → ∃ a b, ("rmin", a) ∈ d ∧ ("rmax", b) ∈ d ∧ 0 ≤ a ∧ 0 ≤ b) →
      ∃ m, ifDict o (fun d => markTwo facet d "rmin" "rmax" 0 1) = .ok m := by
    intro facet o ho h
    cases o with
    | none => exact ⟨none, rfl⟩
    | some d =>
      obtain ⟨a, b, h1, h2, ha, hb⟩ := h d rfl
      exact ⟨_, by simp only [ifDict]; rw [markTwo_ok _ (ho d rfl) h1 h2 ha hb]; rfl⟩
  constructor
  · rintro ⟨r, h⟩ d hd
    unfold createRadial at h
    simp only [bind, Except.bind] at h
    split at h
    · cases h
    · rename_i m1 e1
      split at h
      · cases h
      · rename_i m2 e2
        rcases hd with rfl | rfl
        · refine key (lineFacet (Radial.unitVertex nr) nr) d ?_
          simp only [ifDict, bind, Except.bind, pure, Except.pure] at e1
          split at e1
          · cases e1
          · rename_i v ev; exact ⟨v, ev⟩
        · refine key (lineFacet (Radial.unitVertex nr) nr) d ?_
          simp only [ifDict, bind, Except.bind, pure, Except.pure] at e2
          split at e2
          · cases e2
          · rename_i v ev; exact ⟨v, ev⟩
  · intro h
    obtain ⟨m1, e1⟩ := conv (lineFacet (Radial.unitVertex nr) nr) fd hf (fun d hd => h d (.inl hd))
    obtain ⟨m2, e2⟩ := conv (lineFacet (Radial.unitVertex nr) nr) pd hp (fun d hd => h d (.inr hd))
    refine ⟨⟨m1, m2⟩, ?_⟩
    unfold createRadial
    simp only [bind, Except.bind, pure, Except.pure]
    rw [e1]
    simp only
    rw [e2]

/-- C82 is false for particles on a Cartesian interval: the dictionary is ignored, all tags are 0. -/
theorem C82_false_interval_particles (xmin xmax : K) (nx : Nat) (d : Dict) :
    createX xmin xmax nx none (some d) none = .ok ⟨none, some (fun _ => 0)⟩ ∧
    (IsDict d → ∀ t, ("xmin", t) ∈ d → t ≠ 0 → ¬ Tagged (IsLine nx) (lineFacet (gridPoint xmin xmax nx) nx) d
      [atX "xmin" xmin, atX "xmax" xmax] (fun _ => 0)) := by
  refine ⟨rfl, fun hd t ht h0 h => ?_⟩
  have := h.1 0 (Nat.zero_le _) (atX "xmin" xmin) (by simp)
    ((liesOn_line _ _ _ _ _).2 ⟨.inl rfl, gridPoint_zero _ _ _⟩)
  exact h0 (mem_unique hd ht this)

/-- C82 is false on a box: the dictionary is ignored, all tags are 0. -/
theorem C82_false_box (d : Dict) :
    createXYZ (ι := ι) none (some d) none = .ok ⟨none, some (fun _ => 0)⟩ := rfl

/-- C82 is false for microscopic meshes: on a rectangle one unit wide and 1e-10 units high with cells
half as high, the lowest facet of the side `xmin` is tagged as part of `ymin`. -/
theorem C82_false_fine_cells : ∃ pm,
    createXY (0 : ℚ) 1 0 (1 / 10 ^ 10) 2 2 none (some [("xmin", 1), ("xmax", 2), ("ymin", 3), ("ymax", 4)]) none =
      .ok ⟨none, some pm⟩ ∧
    ¬ Tagged (IsRect 2 2) (rectFacet (0 : ℚ) 1 0 (1 / 10 ^ 10) 2 2)
      [("xmin", 1), ("xmax", 2), ("ymin", 3), ("ymax", 4)]
      [atX "xmin" 0, atX "xmax" 1, atY "ymin" 0, atY "ymax" (1 / 10 ^ 10)] pm := by
  obtain ⟨pm, h1, h2⟩ := C82_rectangle (xmin := (0 : ℚ)) (xmax := 1) (ymin := 0) (ymax := 1 / 10 ^ 10)
    (by norm_num) (by norm_num) (nx := 2) (ny := 2) (by decide) (by decide)
    (d := [("xmin", 1), ("xmax", 2), ("ymin", 3), ("ymax", 4)]) (by unfold IsDict; decide)
    (t1 := 1) (t2 := 2) (t3 := 3) (t4 := 4) (by decide) (by decide) (by decide) (by decide) (by decide)
    (by decide) (by decide) (by decide) (by decide) (by decide) (by decide)
  refine ⟨pm, h1, fun h => ?_⟩
  have := (h2.1 h).2
  norm_num [tol] at this

/-- C82 is false for source regions: on an interval every source dictionary raises NameError, in two and
three dimensions it ends the program, as a field dictionary does. -/
theorem C82_false_sources (xmin xmax ymin ymax : K) (nx ny : Nat) (d : Dict) :
    createX xmin xmax nx none none (some d) = .error .name ∧
    createXY xmin xmax ymin ymax nx ny none none (some d) = .error .exit ∧
    createXY xmin xmax ymin ymax nx ny (some d) none none = .error .exit ∧
    createXYZ (ι := ι) none none (some d) = .error .exit ∧
    createXYZ (ι := ι) (some d) none none = .error .exit :=
  ⟨rfl, rfl, rfl, rfl, rfl⟩

/-- C82 is false for radial markers read from files: they are dropped.  If the mesh comes from a file, the
movers raise AttributeError at the first facet; the quarter circle uses the marker of the file. -/
theorem C82_false_files (create : Except Err (Marks ι)) (fm pm : ι → Int) (f : ι) :
    (∃ obj, initRadial create ⟨true, some fm, some pm⟩ = .ok obj ∧ obj.particle.at f = .error .attribute) ∧
    (∀ fm' pm', initRadial create ⟨false, some fm, some pm⟩ = initRadial create ⟨false, fm', pm'⟩) ∧
    (∃ obj, initCircle create ⟨true, some fm, some pm⟩ = .ok obj ∧ obj.particle.at f = .ok (pm f)) :=
  ⟨⟨_, rfl, rfl⟩, fun _ _ => rfl, ⟨_, rfl, rfl⟩⟩

/-- C82.  Without a particle dictionary the radial mesh and the Cartesian meshes get None for a marker,
so that the first facet a particle meets raises TypeError; the quarter circle gets one that is 0
everywhere. -/
theorem C82_no_dictionary {nr nt : Nat} {rmin rmax : K} (i : Nat) (f : RFacet K) :
    (∃ obj, initRadial (createRadial (K := K) nr none none) ⟨false, none, none⟩ = .ok obj ∧
      obj.particle.at i = .error .type) ∧
    (∃ obj, initCircle (createCircle rmin rmax nr nt none none) ⟨false, none, none⟩ = .ok obj ∧
      obj.particle.at f = .ok 0) :=
  ⟨⟨_, rfl, rfl⟩, ⟨_, rfl, rfl⟩⟩

-- The hypotheses of the C82 theorems are met by the dictionaries of the examples.
example : IsDict [("rmin", 1), ("rmax", 2)] ∧ IsDict [("xmin", 1), ("xmax", 2), ("ymin", 4), ("ymax", 8)] := by
  unfold IsDict; decide

example : ((createRadial (K := ℚ) 4 none (some [("rmin", 1), ("rmax", 2)])).toOption.bind Marks.particle).map
    (fun m => (List.range 5).map m) = some [1, 0, 0, 0, 2] := by decide +kernel

example : ((createXY (-1 : ℚ) 1 (-2) 2 2 2 none (some [("xmin", 1), ("xmax", 2), ("ymin", 4), ("ymax", 8)])
    none).toOption.bind Marks.particle).map (fun m => [m (.h 0 0), m (.h 1 0), m (.h 0 1), m (.h 0 2), m (.v 0 0),
      m (.v 0 1), m (.v 1 0), m (.v 2 1), m (.inner (0, 0) (1, 1))]) = some [4, 4, 0, 8, 1, 1, 0, 2, 0] := by
  decide +kernel

/-- The tags of four facets of a rectangle, the ends of an interval, or the dimension of a box. -/
def showMesh : Except Err (Created ℚ) → List Int
  | .ok (.rect ⟨_, some m⟩) => [m (.v 0 0), m (.v 1 0), m (.h 0 0), m (.h 0 3)]
  | .ok (.line ⟨some m, _⟩) => [m 0, m 2]
  | .ok (.box _) => [3]
  | .ok _ => []
  | .error _ => [-1]

-- The dimension of a Cartesian mesh is that of the box; the number of cells must be given for each.
example : showMesh (createMesh (0, 0, 0) (1, 2, 0) [1, 3] none
      (some [("xmin", 1), ("xmax", 2), ("ymin", 4), ("ymax", 8)]) none) = [1, 2, 4, 8] ∧
    showMesh (createMesh (0, 0, 0) (1, 0, 0) [2] (some [("xmin", 1), ("xmax", 2)]) none none) = [1, 2] ∧
    showMesh (createMesh (0, 0, 0) (1, 1, 1) [2, 2, 2] none none none) = [3] ∧
    showMesh (createMesh (0, 0, 0) (1, 1, 0) [2] none none none) = [-1] := by decide +kernel

end Dt
