import Verif.Spec.ShellField
import Verif.Props.Order

/-!
# The field in spherical simulations against Coulomb's law (C114)
-/

set_option linter.unusedSectionVars false

namespace Dt
open Spec Poisson TimeLoop
variable {K V : Type} [Field K] [LinearOrder K] [IsStrictOrderedRing K] {ρ : Type}

section
variable {x : Nat → K} {N : Nat} {eps vN : K}

theorem mean_square {a b : K} (h0 : 0 ≤ a) (hab : a < b) : a ^ 2 ≤ area .spherical a b ∧ area .spherical a b ≤ b ^ 2 ∧ 0 < area .spherical a b := by
  show a ^ 2 ≤ (a * a + a * b + b * b) / 3 ∧ (a * a + a * b + b * b) / 3 ≤ b ^ 2 ∧ 0 < (a * a + a * b + b * b) / 3
  have hb : 0 < b := h0.trans_lt hab
  have h1 : a * a ≤ a * b := mul_le_mul_of_nonneg_left hab.le h0
  have h2 : a * b ≤ b * b := mul_le_mul_of_nonneg_right hab.le hb.le
  have h3 : 0 < b * b := mul_pos hb hb
  have h4 : 0 ≤ a * a := mul_nonneg h0 h0
  refine ⟨?_, ?_, ?_⟩
  · rw [pow_two]; linarith
  · rw [pow_two]; linarith
  · linarith

theorem below_unit {a b y : K} (hab : a < b) : 0 ≤ below a b y ∧ below a b y ≤ 1 := by
  unfold below
  split
  · constructor <;> linarith
  · split
    · constructor <;> linarith
    · rename_i g1 g2
      have := not_le.1 g1
      have := not_le.1 g2
      have hp : 0 < b - a := by linarith
      exact ⟨div_nonneg (by linarith) hp.le, by rw [div_le_one hp]; linarith⟩

/-- The charge that counts as below the cell: that inside, and shares of that in the cell. -/
theorem split_cell {a b : K} (f : K → K) (h1 : ∀ y < a, f y = 1) (h2 : ∀ y, b < y → f y = 0) (hab : a < b) (charges : List (K × K)) :
    (charges.map (fun q => q.1 * f q.2)).sum = inside a charges + ((within a b charges).map (fun q => q.1 * f q.2)).sum := by
  unfold inside within
  induction charges with
  | nil => simp
  | cons q l ih =>
    rw [List.map_cons, List.sum_cons, ih, List.filter_cons, List.filter_cons]
    rcases lt_or_ge q.2 a with h | h
    · rw [if_pos (by simpa using h), if_neg (by simp [not_le.2 h]), h1 _ h]
      simp only [List.map_cons, List.sum_cons]
      ring
    · rw [if_neg (by simpa using h)]
      rcases lt_or_ge b q.2 with h' | h'
      · rw [if_neg (by simp [not_le.2 h']), h2 _ h']
        ring
      · rw [if_pos (by simp [h, h'])]
        simp only [List.map_cons, List.sum_cons]
        ring

theorem open_field {charges : List (K × K)} {F : Nat → K} (hF : IsField eps .spherical x N .unset vN charges F) {c : Nat} (hc : c < N) :
    eps * (area .spherical (x c) (x (c + 1)) * F c) = (charges.map (fun q => q.1 * below (x c) (x (c + 1)) q.2)).sum := by
  obtain ⟨A, h1, h2, -⟩ := hF
  rw [h2 rfl] at h1
  have := h1 c hc
  rw [zero_add] at this
  exact this

/-- C114.  In a cell that holds no shell the field is the exact one at the root mean square radius of the cell. -/
theorem C114_mean (he : 0 < eps) (hg : Grid .spherical x N) {charges : List (K × K)} {F : Nat → K}
    (hF : IsField eps .spherical x N .unset vN charges F) {c : Nat} (hc : c < N)
    (hemp : ∀ q ∈ charges, q.2 < x c ∨ x (c + 1) < q.2) :
    ∃ r2 : K, 0 < r2 ∧ x c ^ 2 ≤ r2 ∧ r2 ≤ x (c + 1) ^ 2 ∧ F c = inside (x c) charges / (eps * r2) ∧
      ∀ t, x c ≤ t → t ≤ x (c + 1) → t ^ 2 = r2 → F c = shellField eps charges t := by
  have h0 : 0 ≤ x c := (hg.nonneg rfl).trans (grid_up hg.lt (Nat.zero_le c) hc.le)
  have hab := hg.lt c hc
  obtain ⟨m1, m2, m3⟩ := mean_square h0 hab
  have hw : within (x c) (x (c + 1)) charges = [] := by
    unfold within
    rw [List.filter_eq_nil_iff]
    intro q hq
    simp only [decide_eq_true_eq, not_and, not_le]
    intro h
    rcases hemp q hq with h' | h'
    · exact absurd h (not_le.2 h')
    · exact h'
  have hf := open_field hF hc
  rw [split_cell (below (x c) (x (c + 1))) (fun y hy => by rw [below, if_pos hy.le])
    (fun y hy => by rw [below, if_neg (by linarith), if_pos hy.le]) hab charges, hw] at hf
  simp only [List.map_nil, List.sum_nil, add_zero] at hf
  have hF' : F c = inside (x c) charges / (eps * area .spherical (x c) (x (c + 1))) := by
    rw [eq_div_iff (mul_pos he m3).ne', ← hf]
    ring
  refine ⟨_, m3, m1, m2, hF', fun t t1 t2 ht => ?_⟩
  rw [shellField, split_cell (halfBelow t) (fun y hy => by rw [halfBelow, if_pos (by linarith)])
    (fun y hy => by rw [halfBelow, if_neg (by linarith), if_pos (by linarith)]) hab charges, hw, ht, hF']
  simp

/-- C114.  The field differs from the exact field in a cell from `a` to `b` by at most the charge inside times
`(1/a² - 1/b²)/eps`, plus the charge (all counted as positive) in the cell divided by `eps a²`. -/
theorem C114_bound (he : 0 < eps) (hg : Grid .spherical x N) {charges : List (K × K)} {F : Nat → K}
    (hF : IsField eps .spherical x N .unset vN charges F) {c : Nat} (hc : c < N) (h0 : 0 < x c) {t : K} (t1 : x c ≤ t) (t2 : t ≤ x (c + 1)) :
    |F c - shellField eps charges t| ≤ (|inside (x c) charges| * (1 / x c ^ 2 - 1 / x (c + 1) ^ 2) +
      ((within (x c) (x (c + 1)) charges).map (fun q => |q.1|)).sum / x c ^ 2) / eps := by
  have hab := hg.lt c hc
  obtain ⟨m1, m2, m3⟩ := mean_square h0.le hab
  have hf := open_field hF hc
  have htt : 0 < t := h0.trans_le t1
  have hb0 : 0 < x (c + 1) := h0.trans hab
  set r2 := area .spherical (x c) (x (c + 1)) with hr2
  rw [split_cell (below (x c) (x (c + 1))) (fun y hy => by rw [below, if_pos hy.le])
    (fun y hy => by rw [below, if_neg (by linarith), if_pos hy.le]) hab charges] at hf
  rw [shellField, split_cell (halfBelow t) (fun y hy => by rw [halfBelow, if_pos (by linarith)])
    (fun y hy => by rw [halfBelow, if_neg (by linarith), if_pos (by linarith)]) hab charges]
  generalize within (x c) (x (c + 1)) charges = l at hf ⊢
  generalize inside (x c) charges = Q at hf ⊢
  have hFc : F c = (Q + (l.map (fun q => q.1 * below (x c) (x (c + 1)) q.2)).sum) / r2 / eps := by
    rw [← hf]
    field_simp
  have ha2 : 0 < x c ^ 2 := by positivity
  have ht2 : 0 < t ^ 2 := by positivity
  have hb2 : 0 < x (c + 1) ^ 2 := by positivity
  have i1 : 1 / r2 ≤ 1 / x c ^ 2 := one_div_le_one_div_of_le ha2 m1
  have i2 : 1 / x (c + 1) ^ 2 ≤ 1 / r2 := one_div_le_one_div_of_le m3 m2
  have i3 : 1 / t ^ 2 ≤ 1 / x c ^ 2 := one_div_le_one_div_of_le ha2 (pow_le_pow_left₀ h0.le t1 2)
  have i4 : 1 / x (c + 1) ^ 2 ≤ 1 / t ^ 2 := one_div_le_one_div_of_le ht2 (pow_le_pow_left₀ htt.le t2 2)
  have hdiff : F c - (Q + (l.map (fun q => q.1 * halfBelow t q.2)).sum) / (eps * t ^ 2) =
      (Q * (1 / r2 - 1 / t ^ 2) + (l.map (fun q => q.1 * (below (x c) (x (c + 1)) q.2 * (1 / r2) - halfBelow t q.2 * (1 / t ^ 2)))).sum) / eps := by
    have : (l.map (fun q => q.1 * (below (x c) (x (c + 1)) q.2 * (1 / r2) - halfBelow t q.2 * (1 / t ^ 2)))).sum =
        (l.map (fun q => q.1 * below (x c) (x (c + 1)) q.2)).sum * (1 / r2) - (l.map (fun q => q.1 * halfBelow t q.2)).sum * (1 / t ^ 2) := by
      clear hf hFc
      induction l with
      | nil => simp
      | cons q l ih =>
        simp only [List.map_cons, List.sum_cons, ih]
        ring
    rw [hFc, this]
    field_simp
    ring
  rw [hdiff, abs_div, abs_of_pos he]
  refine div_le_div_of_nonneg_right ?_ he.le
  refine le_trans (abs_add_le _ _) (add_le_add ?_ ?_)
  · rw [abs_mul]
    exact mul_le_mul_of_nonneg_left (abs_le.2 ⟨by linarith, by linarith⟩) (abs_nonneg _)
  · clear hf hFc hdiff
    induction l with
    | nil => simp
    | cons q l ih =>
      simp only [List.map_cons, List.sum_cons]
      refine (abs_add_le _ _).trans ?_
      rw [add_div]
      refine add_le_add ?_ ih
      rw [abs_mul, div_eq_mul_one_div |q.1|]
      refine mul_le_mul_of_nonneg_left ?_ (abs_nonneg _)
      obtain ⟨u1, u2⟩ := below_unit (y := q.2) hab
      have v1 : 0 ≤ halfBelow t q.2 ∧ halfBelow t q.2 ≤ 1 := by
        unfold halfBelow
        split
        · constructor <;> linarith
        · split
          · constructor <;> linarith
          · constructor <;> norm_num
      have p1 : 0 ≤ 1 / r2 := by positivity
      have p2 : 0 ≤ 1 / t ^ 2 := by positivity
      have w1 := mul_nonneg u1 p1
      have w2 := mul_nonneg v1.1 p2
      have w3 : below (x c) (x (c + 1)) q.2 * (1 / r2) ≤ 1 / r2 := mul_le_of_le_one_left p1 u2
      have w4 : halfBelow t q.2 * (1 / t ^ 2) ≤ 1 / t ^ 2 := mul_le_of_le_one_left p2 v1.2
      exact abs_le.2 ⟨by linarith, by linarith⟩

/-- C114.  The voltage across a cell without shells is smaller than that of Coulomb's law, by the factor
`3ab/(a² + ab + b²) < 1`; so the computed potential is not exact at the vertices (as it is between plates, C90). -/
theorem C114_voltage (he : 0 < eps) (hg : Grid .spherical x N) {charges : List (K × K)} {F : Nat → K}
    (hF : IsField eps .spherical x N .unset vN charges F) {c : Nat} (hc : c < N) (h0 : 0 < x c)
    (hemp : ∀ q ∈ charges, q.2 < x c ∨ x (c + 1) < q.2) :
    (x (c + 1) - x c) * F c = coulomb eps (inside (x c) charges) (x c) (x (c + 1)) *
      (3 * x c * x (c + 1) / (x c ^ 2 + x c * x (c + 1) + x (c + 1) ^ 2)) ∧
    3 * x c * x (c + 1) / (x c ^ 2 + x c * x (c + 1) + x (c + 1) ^ 2) < 1 := by
  have hab := hg.lt c hc
  have hb0 : 0 < x (c + 1) := h0.trans hab
  have hw : within (x c) (x (c + 1)) charges = [] := by
    unfold within
    rw [List.filter_eq_nil_iff]
    intro q hq
    simp only [decide_eq_true_eq, not_and, not_le]
    intro h
    rcases hemp q hq with h' | h'
    · exact absurd h (not_le.2 h')
    · exact h'
  have hf := open_field hF hc
  rw [split_cell (below (x c) (x (c + 1))) (fun y hy => by rw [below, if_pos hy.le])
    (fun y hy => by rw [below, if_neg (by linarith), if_pos hy.le]) hab charges, hw] at hf
  simp only [List.map_nil, List.sum_nil, add_zero] at hf
  have hp : 0 < x c ^ 2 + x c * x (c + 1) + x (c + 1) ^ 2 := by positivity
  constructor
  · rw [coulomb, ← hf]
    show _ = eps * ((x c * x c + x c * x (c + 1) + x (c + 1) * x (c + 1)) / 3 * F c) / eps * _ * _
    field_simp
  · rw [div_lt_one hp]
    have : 0 < (x (c + 1) - x c) ^ 2 := by have := sub_pos.2 hab; positivity
    nlinarith

/-- C114.  Every step of a spherical simulation (C93) with an open lower end. -/
theorem C114_run (he : 0 < eps) (hg : Grid .spherical x N) {L : String → Bool} {qom : String → K} {locate : K → Nat} (hloc : Locates x N locate)
    {σ φ : Type} {cfg : Cfg K V (Part K 1 ρ) σ φ} {sl : Nat} {is : List (Ideal K V (Part K 1 ρ) σ)}
    (h : is.IsChain (FieldStep eps .spherical x N .unset vN L qom locate cfg sl)) :
    is.IsChain (ShellStep eps x N L qom cfg sl) := by
  refine h.imp fun i j h => ?_
  obtain ⟨h1, h2, F, hF, hp⟩ := h
  refine ⟨h1, h2, fun t => F (locate t), fun t t0 t1 => ?_, hp⟩
  obtain ⟨c0, c1, c2⟩ := hloc t t0 t1
  exact ⟨locate t, c0, c1, c2, fun h0 => C114_bound he hg hF c0 h0 c1 c2⟩

end

/-! ### One shell in a sphere -/

section Demo

/-- The hypotheses are met: the vertices 0, 1, 2, and a shell of radius 1/2. -/
example : ∃ F, IsField 1 .spherical ballX 2 .unset (5 : ℚ) [(-1 / 4, 1 / 2)] F ∧
    (ballX 2 - ballX 1) * F 1 = coulomb 1 (inside (ballX 1) [(-1 / 4, 1 / 2)]) (ballX 1) (ballX 2) * (3 * ballX 1 * ballX 2 / (ballX 1 ^ 2 + ballX 1 * ballX 2 + ballX 2 ^ 2)) := by
  obtain ⟨F, hF⟩ := C105_field (v0 := .unset) (vN := (5 : ℚ)) one_pos ball_grid [(-1 / 4, 1 / 2)]
  exact ⟨F, hF, (C114_voltage one_pos ball_grid hF (by decide) (by decide +kernel) (by
    intro q hq
    obtain rfl := List.mem_singleton.1 hq
    exact .inl (by decide +kernel))).1⟩

/-- C114 is false for the potential: with one shell of radius 1/2 and charge -1/4 the exact potential at the vertex at 1
is 5 - 1/8; the simulation has 5 - 3/28. -/
theorem C114_false_potential : ∃ i0, Ideal.run ballCfg 2 3 (inLine ballX 2) (some [("e", [demoPart (1 / 2) 0 0 false])]) [0, 0, 0] 0 simIdeal = .ok (i0, []) ∧
    chargesOf ballCfg.A.weight (ballCfg.factor.getD 1) i0.pops = [(-1 / 4, 1 / 2)] ∧
    i0.phi[1]? = some (5 - 3 / 28) ∧ i0.phi[2]? = some 5 ∧
    coulomb 1 (inside 1 (chargesOf ballCfg.A.weight (ballCfg.factor.getD 1) i0.pops)) 1 2 = -1 / 8 := by
  have h : (Ideal.run ballCfg 2 3 (inLine ballX 2) (some [("e", [demoPart (1 / 2) 0 0 false])]) [0, 0, 0] 0 simIdeal).toOption.map
      (fun r => (r.2.length, chargesOf ballCfg.A.weight (ballCfg.factor.getD 1) r.1.pops, r.1.phi[1]?, r.1.phi[2]?)) =
      some (0, [(-1 / 4, 1 / 2)], some (5 - 3 / 28), some 5) := by decide +kernel
  cases hr : Ideal.run ballCfg 2 3 (inLine ballX 2) (some [("e", [demoPart (1 / 2) 0 0 false])]) [0, 0, 0] 0 simIdeal with
  | error f => rw [hr] at h; cases h
  | ok r =>
    obtain ⟨i0, is⟩ := r
    rw [hr] at h
    simp only [Except.toOption, Option.map_some, Option.some.injEq, Prod.mk.injEq, List.length_eq_zero_iff] at h
    obtain ⟨rfl, h1, h2, h3⟩ := h
    refine ⟨i0, rfl, h1, h2, h3, ?_⟩
    rw [h1]
    decide +kernel

end Demo

end Dt
