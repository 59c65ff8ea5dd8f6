import Verif.Lemmas.CrossGrid
import Verif.Lemmas.CrossedGrid

/-!
# Lines through a sector of a ring
-/

namespace Dt
namespace Sector
open Real Dt.Topology Spec Rect

variable {R T M : Nat → ℝ} {nr nt : Nat} {x y : Nat → ℝ} {b : Nat → Nat → Bool} {f : Vec ℝ 2 → Vec ℝ 2} {δ : ℝ}

/-- The direction half way between two rays. -/
noncomputable def halfway (T : Nat → ℝ) (j : Nat) : Vec ℝ 2 := fun k => dir (T j) k + dir (T (j + 1)) k

/-- The direction across a ray. -/
noncomputable def acrossRay (t : ℝ) : Vec ℝ 2 := ![-sin t, cos t]

theorem dot_two (a p : Vec ℝ 2) : dot a p = a 0 * p 0 + a 1 * p 1 := by simp [dot, Fin.sum_univ_two]

theorem halfway_cone (hT : ∀ j, T (j + 1) = T j + δ) (j : Nat) (a c a' c' : ℝ) :
    dot (halfway T j) (Crossed.cone T j a c - Crossed.cone T j a' c') = ((a + c) - (a' + c')) * (1 + cos δ) := by
  have e : cos δ = cos (T j) * cos (T (j + 1)) + sin (T j) * sin (T (j + 1)) := by
    rw [← cos_sub, hT, show T j - (T j + δ) = -δ by ring, cos_neg]
  rw [dot_two, e]
  simp only [halfway, Crossed.cone, dir, Pi.sub_apply, Matrix.cons_val_zero, Matrix.cons_val_one]
  have h1 := cos_sq_add_sin_sq (T j)
  have h2 := cos_sq_add_sin_sq (T (j + 1))
  linear_combination (a - a') * h1 + (c - c') * h2

theorem upper_cone (hT : ∀ j, T (j + 1) = T j + δ) (j : Nat) (a c a' c' : ℝ) :
    dot (acrossRay (T (j + 1))) (Crossed.cone T j a c - Crossed.cone T j a' c') = (a' - a) * sin δ := by
  have e : sin δ = sin (T (j + 1)) * cos (T j) - cos (T (j + 1)) * sin (T j) := by
    rw [← sin_sub, hT, show T j + δ - T j = δ by ring]
  rw [dot_two, e]
  simp only [acrossRay, Crossed.cone, dir, Pi.sub_apply, Matrix.cons_val_zero, Matrix.cons_val_one]
  ring

theorem lower_cone (hT : ∀ j, T (j + 1) = T j + δ) (j : Nat) (a c a' c' : ℝ) :
    dot (acrossRay (T j)) (Crossed.cone T j a c - Crossed.cone T j a' c') = (c - c') * sin δ := by
  have e : sin δ = sin (T (j + 1)) * cos (T j) - cos (T (j + 1)) * sin (T j) := by
    rw [← sin_sub, hT, show T j + δ - T j = δ by ring]
  rw [dot_two, e]
  simp only [acrossRay, Crossed.cone, dir, Pi.sub_apply, Matrix.cons_val_zero, Matrix.cons_val_one]
  ring

/-- Across a ray, the direction half way grows into the direction across. -/
theorem halfway_step (hT : ∀ j, T (j + 1) = T j + δ) (j : Nat) (d : Vec ℝ 2) :
    dot (halfway T (j + 1)) d = dot (halfway T j) d + 2 * sin δ * dot (acrossRay (T (j + 1))) d := by
  have e1 : T j = T (j + 1) - δ := by rw [hT]; ring
  rw [dot_two, dot_two, dot_two]
  simp only [halfway, acrossRay, dir, Matrix.cons_val_zero, Matrix.cons_val_one]
  rw [hT (j + 1), e1]
  generalize T (j + 1) = t
  rw [cos_add, sin_add, cos_sub, sin_sub]
  ring

/-- The four sides of a box, by the coordinates in the cone. -/
inductive Outer (r r' : ℝ) (pl : Fin 3 → ℝ × ℝ) (k : Fin 3) : Edge → Prop where
  | right : (∀ m ≠ k, (pl m).1 + (pl m).2 = r') → (pl k).1 + (pl k).2 < r' → Outer r r' pl k .right
  | left : (∀ m ≠ k, (pl m).1 + (pl m).2 = r) → r < (pl k).1 + (pl k).2 → Outer r r' pl k .left
  | top : (∀ m ≠ k, (pl m).1 = 0) → 0 < (pl k).1 → Outer r r' pl k .top
  | bottom : (∀ m ≠ k, (pl m).2 = 0) → 0 < (pl k).2 → Outer r r' pl k .bottom

/-- What the direction of something that leaves a box through a side is like. -/
def Leaves (T : Nat → ℝ) (j : Nat) (d : Vec ℝ 2) : Edge → Prop
  | .right => 0 < dot (halfway T j) d
  | .left => dot (halfway T j) d < 0
  | .top => 0 < dot (acrossRay (T (j + 1))) d
  | .bottom => dot (acrossRay (T j)) d < 0
  | .diag => True

theorem dot_neg_left (a p : Vec ℝ 2) : dot (-a) p = -dot a p := by
  rw [dot_two, dot_two]
  simp only [Pi.neg_apply]
  ring

theorem leaves {D : DMesh ℝ 2} (hD : Triangulation (by decide : 2 ≤ 3) D) (hT : ∀ j, T (j + 1) = T j + δ) (h0 : 0 < δ) (hπ : δ < π)
    {c : DSimplex ℝ} (hc : c ∈ D.cells) {j : Nat} {pl : Fin 3 → ℝ × ℝ} (hco : ∀ k : Fin 3, corner D c k = Crossed.cone T j (pl k).1 (pl k).2)
    {k : Fin 3} {r r' : ℝ} {e : Edge} (ho : Outer r r' pl k e) {d : Vec ℝ 2} (hd : 0 < dot (cutNormal (by decide : 2 ≤ 3) (c.normal k)) d) :
    Leaves T j d e := by
  have hs : 0 < sin δ := sin_pos_of_pos_of_lt_pi h0 hπ
  have hcp : 0 < 1 + cos δ := by
    have : cos π < cos δ := cos_lt_cos_of_nonneg_of_le_pi h0.le le_rfl hπ
    rw [cos_pi] at this
    linarith
  have key : ∀ a : Vec ℝ 2, (∀ m ≠ k, ∀ m' ≠ k, dot a (corner D c m' - corner D c m) = 0) →
      (∀ m ≠ k, dot a (corner D c k - corner D c m) < 0) → 0 < dot a d := by
    intro a h1 h2
    refine outward_dir (k := k) hD hc ?_ ?_ hd
    · intro m m' hm hm'
      unfold onFacet at hm hm'
      rw [if_neg (by decide)] at hm hm'
      exact h1 m (fun h => hm (congrArg Fin.val h)) m' (fun h => hm' (congrArg Fin.val h))
    · intro m m' hm hm'
      unfold onFacet at hm hm'
      rw [if_neg (by decide)] at hm hm'
      have : m' = k := by
        by_contra h
        exact hm' (fun h' => h (Fin.ext h'))
      rw [this]
      exact h2 m (fun h => hm (congrArg Fin.val h))
  cases ho with
  | right h1 h2 =>
    refine key _ (fun m hm m' hm' => ?_) fun m hm => ?_
    · rw [hco, hco, halfway_cone hT, h1 m hm, h1 m' hm']; ring
    · rw [hco, hco, halfway_cone hT, h1 m hm]
      exact mul_neg_of_neg_of_pos (by linarith) hcp
  | left h1 h2 =>
    have := key (-halfway T j) (fun m hm m' hm' => ?_) fun m hm => ?_
    · rw [dot_neg_left] at this
      simp only [Leaves]
      linarith
    · rw [hco, hco, dot_neg_left, halfway_cone hT, h1 m hm, h1 m' hm']; ring
    · rw [hco, hco, dot_neg_left, halfway_cone hT, h1 m hm]
      have : 0 < ((pl k).1 + (pl k).2 - r) * (1 + cos δ) := mul_pos (by linarith) hcp
      linarith
  | top h1 h2 =>
    refine key _ (fun m hm m' hm' => ?_) fun m hm => ?_
    · rw [hco, hco, upper_cone hT, h1 m hm, h1 m' hm']; ring
    · rw [hco, hco, upper_cone hT, h1 m hm]
      exact mul_neg_of_neg_of_pos (by linarith) hs
  | bottom h1 h2 =>
    have := key (-acrossRay (T j)) (fun m hm m' hm' => ?_) fun m hm => ?_
    · rw [dot_neg_left] at this
      simp only [Leaves]
      linarith
    · rw [hco, hco, dot_neg_left, lower_cone hT, h1 m hm, h1 m' hm']; ring
    · rw [hco, hco, dot_neg_left, lower_cone hT, h1 m hm]
      have : 0 < ((pl k).2 - 0) * sin δ := mul_pos (by linarith) hs
      linarith

/-- Where the side of a box leads to. -/
def Leads (i j i' j' : Nat) : Edge → Prop
  | .right => i' = i + 1 ∧ j' = j
  | .left => i = i' + 1 ∧ j' = j
  | .top => i = i' ∧ j' = j + 1
  | .bottom => i = i' ∧ j = j' + 1
  | .diag => i = i' ∧ j = j'

theorem step_rings (hT : ∀ j, T (j + 1) = T j + δ) (h0 : 0 < δ) (hπ : δ < π) {i j i' j' : Nat} {d : Vec ℝ 2} {e : Edge}
    (hl : Leaves T j d e) (hle : Leads i j i' j' e) :
    (i = i' ∧ j = j') ∨ (i' = i + 1 ∧ j' = j ∧ 0 < dot (halfway T j) d) ∨ (i = i' + 1 ∧ j' = j ∧ dot (halfway T j) d < 0) ∨
      (i = i' ∧ dot (halfway T j) d < dot (halfway T j') d) := by
  have hs : 0 < sin δ := sin_pos_of_pos_of_lt_pi h0 hπ
  cases e with
  | right => exact .inr (.inl ⟨hle.1, hle.2, hl⟩)
  | left => exact .inr (.inr (.inl ⟨hle.1, hle.2, hl⟩))
  | top =>
    obtain ⟨rfl, rfl⟩ := hle
    refine .inr (.inr (.inr ⟨rfl, ?_⟩))
    have hl' : 0 < dot (acrossRay (T (j + 1))) d := hl
    rw [halfway_step hT]
    have := mul_pos hs hl'
    linarith
  | bottom =>
    obtain ⟨rfl, rfl⟩ := hle
    refine .inr (.inr (.inr ⟨rfl, ?_⟩))
    have hl' : dot (acrossRay (T (j' + 1))) d < 0 := hl
    rw [halfway_step hT]
    have := mul_neg_of_pos_of_neg hs hl'
    linarith
  | diag => exact .inl hle

/-! ### Two triangles in a box -/

/-- The coordinates in the cone of the corners of a triangle. -/
def spot (R : Nat → ℝ) (i j : Nat) (b s : Bool) (k : Fin 3) : ℝ × ℝ :=
  if (cornerAt i j b s k).2 = j then (R (cornerAt i j b s k).1, 0) else (0, R (cornerAt i j b s k).1)

theorem spot_cone (i j : Nat) (b s : Bool) (k : Fin 3) :
    polar (R (cornerAt i j b s k).1) (T (cornerAt i j b s k).2) = Crossed.cone T j (spot R i j b s k).1 (spot R i j b s k).2 := by
  funext m
  unfold spot Crossed.cone polar
  split
  · rename_i h; rw [h]; simp
  · rename_i h
    have : (cornerAt i j b s k).2 = j + 1 := by
      cases b <;> cases s <;> fin_cases k <;> simp [cornerAt] at h ⊢
    rw [this]; simp

theorem spot_outer (h : Polar R T nr nt) {i j : Nat} (hi : i < nr) {b s : Bool} {k : Fin 3} {e : Edge} (he : (edges b s)[k.1]? = some e)
    (hd : e ≠ .diag) : Outer (R i) (R (i + 1)) (spot R i j b s) k e := by
  have h0 := h.posAt (i := i) hi.le
  have h1 := h.posAt (i := i + 1) hi
  have hr := h.radius i hi
  cases b <;> cases s <;> fin_cases k <;> cases he <;>
    first
    | exact absurd rfl hd
    | (refine .right ?_ ?_ <;> [skip; (simp [spot, cornerAt]; try linarith)]
       intro m hm; fin_cases m <;> simp [spot, cornerAt] at hm ⊢)
    | (refine .left ?_ ?_ <;> [skip; (simp [spot, cornerAt]; try linarith)]
       intro m hm; fin_cases m <;> simp [spot, cornerAt] at hm ⊢)
    | (refine .top ?_ ?_ <;> [skip; (simp [spot, cornerAt]; try linarith)]
       intro m hm; fin_cases m <;> simp [spot, cornerAt] at hm ⊢)
    | (refine .bottom ?_ ?_ <;> [skip; (simp [spot, cornerAt]; try linarith)]
       intro m hm; fin_cases m <;> simp [spot, cornerAt] at hm ⊢)

theorem polar_atMost (h : Polar R T nr nt) (hf : Draws f x y R T nr nt) (hT : ∀ j, T (j + 1) = T j + δ) (h0 : 0 < δ) (hπ : δ < π) {n : Nat}
    (hn : 2 * (nt + 2 * nr - 2) = n) : AtMost (by decide : 2 ≤ 3) (redraw sqrt f (dmesh x y b nr nt)) n := by
  have hD := polar_triangulation (d := b) h hf
  refine atMost_rings hD (B := 2) (nx := nr) (ny := nt) ?_ (fun d j => dot (halfway T j) d) ?_ hn
  · intro c hc
    obtain ⟨i, j, s, hi, hj, hx, -⟩ := mem_redraw hc
    refine ⟨i, j, if s then 1 else 0, hi, hj, by cases s <;> simp, ?_⟩
    rw [hx]
    cases s <;> simp [cellNo]
  · intro d c hc c' hc' hA i j r i' j' r' hi hj hr hi' hj' hr' hx hx'
    obtain ⟨i1, j1, s, hi1, hj1, hc1, -, hf1, hco⟩ := mem_redraw hc
    obtain ⟨i2, j2, s', hi2, hj2, hc2, -, hf2, -⟩ := mem_redraw hc'
    have same : ∀ {i j r i1 j1 : Nat} {s : Bool}, i < nr → i1 < nr → r < 2 →
        (2 : Nat) * ((j * nr + i : Nat) : Int) + (r : Int) = cellNo nr i1 j1 s → i1 = i ∧ j1 = j := by
      intro i j r i1 j1 s hi hi1 hr e
      have : j * nr + i = j1 * nr + i1 := by
        unfold cellNo at e
        cases s <;> simp only [Bool.false_eq_true, if_false, if_true] at e <;> push_cast at e <;> omega
      obtain ⟨a, b⟩ := box_decode (j := j) hi
      obtain ⟨a', b'⟩ := box_decode (j := j1) hi1
      rw [this] at a b
      exact ⟨a'.symm.trans a, b'.symm.trans b⟩
    obtain ⟨rfl, rfl⟩ := same hi hi1 hr (hx.symm.trans hc1)
    obtain ⟨rfl, rfl⟩ := same hi' hi2 hr' (hx'.symm.trans hc2)
    obtain ⟨-, k, F, hk, hF, hpos⟩ := hA
    rw [hf1, List.getElem?_map, Option.map_eq_some_iff] at hk
    obtain ⟨e, he, rfl⟩ := hk
    rw [hf2] at hF
    obtain ⟨e', -, hee⟩ := List.mem_map.1 hF
    by_cases hbox : i1 = i2 ∧ j1 = j2
    · exact .inl hbox
    have hle : Leads i1 j1 i2 j2 e := by
      rcases edgeNo_inj hi2 hi1 hee with ⟨rfl, rfl, rfl⟩ | ⟨rfl, rfl, rfl, rfl⟩ | ⟨rfl, rfl, rfl, rfl⟩ | ⟨rfl, rfl, rfl, rfl⟩ |
        ⟨rfl, rfl, rfl, rfl⟩
      · exact absurd ⟨rfl, rfl⟩ hbox
      all_goals exact ⟨rfl, rfl⟩
    by_cases hdiag : e = .diag
    · subst hdiag
      exact .inl hle
    · refine step_rings hT h0 hπ (leaves hD hT h0 hπ hc (j := j1) (pl := spot R i1 j1 (b i1 j1) s) (fun k => ?_)
        (spot_outer h hi he hdiag) hpos) hle
      rw [hco]
      dsimp only
      rw [drawn hf hi hj, spot_cone]

end Sector

namespace Crossed
open Real Dt.Topology Spec Rect Sector

variable {R T M : Nat → ℝ} {nr nt : Nat} {x y : Nat → ℝ} {f : Vec ℝ 2 → Vec ℝ 2} {δ : ℝ} {sq : ℝ → ℝ}

/-- The side of the box a facet of a triangle is, when it is one. -/
def sideEdge : Tri → Edge
  | .bottom => .bottom
  | .left => .left
  | .right => .right
  | .top => .top

theorem place_outer (h : Polar R T nr nt) (hM : Inside R M nr) {i : Nat} (hi : i < nr) (t : Tri) :
    Outer (R i) (R (i + 1)) (place (R i) (R (i + 1)) (M i) t) 2 (sideEdge t) := by
  have h0 := h.posAt (i := i) hi.le
  obtain ⟨h1, h2⟩ := hM i hi
  cases t
  · refine .bottom (fun m hm => ?_) (by simp [place]; linarith)
    fin_cases m <;> simp [place] at hm ⊢
  · refine .left (fun m hm => ?_) (by simp [place]; linarith)
    fin_cases m <;> simp [place] at hm ⊢
  · refine .right (fun m hm => ?_) (by simp [place]; linarith)
    fin_cases m <;> simp [place] at hm ⊢
  · refine .top (fun m hm => ?_) (by simp [place]; linarith)
    fin_cases m <;> simp [place] at hm ⊢

/-- A facet shared with a triangle of another box is the side of the box. -/
theorem shared_side {i j i' j' : Nat} {t t' : Tri} {k : Fin 3} {l : Nat × Nat × Nat} (hl : (labels i j t)[k.1]? = some l)
    (hl' : l ∈ labels i' j' t') (hbox : ¬ (i = i' ∧ j = j')) : k = 2 ∧ Leads i j i' j' (sideEdge t) := by
  have ho := owner_cases hl'
  cases t <;> fin_cases k <;> cases hl <;> simp only [owners, Prod.mk.injEq] at ho <;>
    rcases ho with ⟨h1, h2, rfl⟩ | ⟨h1, h2, rfl⟩ <;>
    first
    | (exfalso; apply hbox; constructor <;> omega)
    | (simp [labels] at hl'
       refine ⟨rfl, ?_⟩
       simp only [sideEdge, Leads]
       omega)

theorem crossed_atMost (h : Polar R T nr nt) (hM : Inside R M nr) (hf : Draws f x y R T nr nt) (hm : DrawsMid f x y M T nr nt)
    (hT : ∀ j, T (j + 1) = T j + δ) (h0 : 0 < δ) (hπ : δ < π) {n : Nat} (hn : 4 * (nt + 2 * nr - 2) = n) :
    AtMost (by decide : 2 ≤ 3) (redraw sqrt f (dmesh sq x y nr nt)) n := by
  have hD := crossed_triangulation (sq := sq) h hM hf hm
  refine atMost_rings hD (B := 4) (nx := nr) (ny := nt) ?_ (fun d j => dot (halfway T j) d) ?_ hn
  · intro c hc
    obtain ⟨i, j, t, hi, hj, hx, -⟩ := mem_redraw hc
    exact ⟨i, j, t.no, hi, hj, by cases t <;> decide, hx⟩
  · intro d c hc c' hc' hA i j r i' j' r' hi hj hr hi' hj' hr' hx hx'
    obtain ⟨i1, j1, t, hi1, hj1, hc1, -, hf1, hco⟩ := mem_redraw hc
    obtain ⟨i2, j2, t', hi2, hj2, hc2, -, hf2, -⟩ := mem_redraw hc'
    have same : ∀ {i j r i1 j1 : Nat} {t : Tri}, i < nr → i1 < nr → r < 4 →
        (4 : Nat) * ((j * nr + i : Nat) : Int) + (r : Int) = triNo nr i1 j1 t → i1 = i ∧ j1 = j := by
      intro i j r i1 j1 t hi hi1 hr e
      have : j * nr + i = j1 * nr + i1 := by
        unfold triNo at e
        have : t.no < 4 := by cases t <;> decide
        push_cast at e
        omega
      obtain ⟨a, b⟩ := box_decode (j := j) hi
      obtain ⟨a', b'⟩ := box_decode (j := j1) hi1
      rw [this] at a b
      exact ⟨a'.symm.trans a, b'.symm.trans b⟩
    obtain ⟨rfl, rfl⟩ := same hi hi1 hr (hx.symm.trans hc1)
    obtain ⟨rfl, rfl⟩ := same hi' hi2 hr' (hx'.symm.trans hc2)
    obtain ⟨-, k, F, hk, hF, hpos⟩ := hA
    rw [hf1, List.getElem?_map, Option.map_eq_some_iff] at hk
    obtain ⟨l, hl, rfl⟩ := hk
    rw [hf2] at hF
    obtain ⟨l', hl', hee⟩ := List.mem_map.1 hF
    by_cases hbox : i1 = i2 ∧ j1 = j2
    · exact .inl hbox
    obtain ⟨a1, a2⟩ := label_bound hi (List.mem_of_getElem? hl)
    obtain ⟨b1, b2⟩ := label_bound hi' hl'
    obtain rfl := facetNo_inj b1 b2 a1 a2 hee
    obtain ⟨rfl, hle⟩ := shared_side hl hl' hbox
    refine step_rings hT h0 hπ (leaves hD hT h0 hπ hc (j := j1) (pl := place (R i1) (R (i1 + 1)) (M i1) t) (fun k => ?_)
      (place_outer h hM hi t) hpos) hle
    rw [hco]
    dsimp only
    rw [drawn hf hm hi hj]

end Crossed
end Dt
