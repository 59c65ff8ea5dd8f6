import Verif.Spec.Reverse
import Verif.Props.Passive

/-!
# A one-dimensional simulation can be run backwards (C116)
-/

set_option linter.unusedSectionVars false

namespace Dt
open Spec Poisson TimeLoop
variable {K V : Type} [Field K] [LinearOrder K] [IsStrictOrderedRing K] {ρ : Type}

section
variable {x : Nat → K} {N : Nat} {eps : K} {co : Coord} {v0 : Val K} {vN : K}

/-- Reversing the motion does not move the charges. -/
theorem charges_flip {weight : Part K 1 ρ → K} (hwt : ∀ q q', q.rest = q'.rest → weight q = weight q') (factor : K)
    {f : Pop K V (Part K 1 ρ) → Vec K 1 × Vec K 1 × ρ → Vec K 1 × Vec K 1 × ρ} (hf : ∀ s k, (f s k).1 = k.1 ∧ (f s k).2.2 = k.2.2)
    {l l' : List (Pop K V (Part K 1 ρ))}
    (h : List.Forall₂ (fun s s' => s'.charge = s.charge ∧ s'.st.items.map kin = (s.st.items.map kin).map (f s)) l l') :
    chargesOf weight factor l' = chargesOf weight factor l := by
  unfold chargesOf
  induction h with
  | nil => rfl
  | @cons s s' l l' hs _ ih =>
    obtain ⟨e2, e5⟩ := hs
    rw [List.flatMap_cons, List.flatMap_cons, ih, e2]
    congr 1
    generalize s.st.items = xs at e5
    generalize s'.st.items = ys at e5
    induction xs generalizing ys with
    | nil =>
      have : ys = [] := by simpa using e5
      rw [this]
    | cons q xs ih =>
      cases ys with
      | nil => simp at e5
      | cons q' ys =>
        simp only [List.map_cons, List.cons.injEq] at e5 ⊢
        refine ⟨?_, ih _ (by simpa using e5.2)⟩
        have h1 := congrArg (fun k => k.1 0) e5.1
        have h2 := congrArg (fun k => k.2.2) e5.1
        simp only [(hf _ _).1] at h1
        simp only [(hf _ _).2] at h2
        rw [hwt q' q h2, show q'.x 0 = q.x 0 from h1]

theorem reversed_charges {weight : Part K 1 ρ → K} (hwt : ∀ q q', q.rest = q'.rest → weight q = weight q') (factor : K)
    {qom : String → K} {dt : K} {F : K → K} {l l' : List (Pop K V (Part K 1 ρ))}
    (h : List.Forall₂ (fun s s' => s'.name = s.name ∧ s'.charge = s.charge ∧
      s'.st.items.map kin = if s.charge = 0 then s.st.items.map kin else (s.st.items.map kin).map (flipped dt (qom s.name) F)) l l') :
    chargesOf weight factor l' = chargesOf weight factor l := by
  refine charges_flip (f := fun s k => if s.charge = 0 then k else flipped dt (qom s.name) F k) hwt factor ?_ (h.imp ?_)
  · intro s k
    split
    · exact ⟨rfl, rfl⟩
    · exact ⟨rfl, rfl⟩
  · rintro s s' ⟨-, e2, e3⟩
    refine ⟨e2, ?_⟩
    rw [e3]
    split
    · simp
    · rfl

/-- Reversing the motion twice changes nothing. -/
theorem C116_twice {qom : String → K} {locate : K → Nat} {σ φ : Type}
    {cfg : Cfg K V (Part K 1 ρ) σ φ} (hwt : ∀ q q', q.rest = q'.rest → cfg.A.weight q = cfg.A.weight q') {i i' : Ideal K V (Part K 1 ρ) σ}
    (h : Reversed eps co x N v0 vN qom locate cfg i i') : Reversed eps co x N v0 vN qom locate cfg i' i := by
  obtain ⟨F, hF, hp⟩ := h
  refine ⟨F, by rwa [reversed_charges hwt _ hp], ?_⟩
  refine (List.Forall₂.flip hp).imp ?_
  rintro s' s ⟨e1, e2, e3⟩
  refine ⟨e1.symm, e2.symm, ?_⟩
  rw [e2, e3, e1]
  split
  · rfl
  · rw [List.map_map]
    symm
    conv_rhs => rw [← List.map_id (s.st.items.map kin)]
    refine List.map_congr_left fun k _ => ?_
    simp only [Function.comp, flipped, id, neg_add_rev, neg_neg]
    ext1
    · rfl
    · ext1
      · dsimp only
        abel
      · rfl

/-- A kick and a drift, the reversal of the motion, and another kick and drift lead back. -/
theorem leap_back {a dt qom : K} {F F' G : K → K} {L : Bool} {k : Vec K 1 × Vec K 1 × ρ} (ha : a ≤ k.1 0) (hL : L = true → a < k.1 0)
    (hG : G ((walledLeap a L dt qom F k).1 0) = F' ((walledLeap a L dt qom F k).1 0)) :
    walledLeap a L dt qom G (flipped dt qom F' (walledLeap a L dt qom F k)) = flipped dt qom F k := by
  generalize hw : walledLeap a L dt qom F k = w at hG
  obtain ⟨X, U, r⟩ := k
  obtain ⟨X', U', r'⟩ := w
  unfold walledLeap leap folded mirrored at hw
  unfold walledLeap leap flipped folded mirrored
  dsimp only [Option.getD] at *
  rw [hG]
  have e1 : ∀ A B : Vec K 1, A 0 = B 0 → A = B := fun A B h => by
    funext t
    rwa [Subsingleton.elim t 0]
  cases L with
  | false =>
    simp only [Bool.false_eq_true, if_false, Prod.mk.injEq] at hw ⊢
    obtain ⟨rfl, rfl, rfl⟩ := hw
    refine ⟨e1 _ _ ?_, e1 _ _ ?_, rfl⟩
    · simp only [Pi.add_apply, Pi.smul_apply, Pi.neg_apply, smul_eq_mul]
      ring
    · simp only [Pi.add_apply, Pi.smul_apply, Pi.neg_apply, smul_eq_mul]
      ring
  | true =>
    have hL := hL rfl
    simp only [if_true] at hw ⊢
    split at hw
    · rename_i hlt
      simp only [Prod.mk.injEq] at hw
      obtain ⟨rfl, rfl, rfl⟩ := hw
      rw [if_pos]
      · simp only [Prod.mk.injEq]
        refine ⟨e1 _ _ ?_, e1 _ _ ?_, trivial⟩
        · simp only [Pi.add_apply, Pi.smul_apply, Pi.neg_apply, smul_eq_mul]
          ring
        · simp only [Pi.add_apply, Pi.smul_apply, Pi.neg_apply, smul_eq_mul]
          ring
      · simp only [Pi.add_apply, Pi.smul_apply, Pi.neg_apply, smul_eq_mul]
        linarith
    · rename_i hlt
      simp only [Prod.mk.injEq] at hw
      obtain ⟨rfl, rfl, rfl⟩ := hw
      rw [if_neg]
      · simp only [Prod.mk.injEq]
        refine ⟨e1 _ _ ?_, e1 _ _ ?_, trivial⟩
        · simp only [Pi.add_apply, Pi.smul_apply, Pi.neg_apply, smul_eq_mul]
          ring
        · simp only [Pi.add_apply, Pi.smul_apply, Pi.neg_apply, smul_eq_mul]
          ring
      · simp only [Pi.add_apply, Pi.smul_apply, Pi.neg_apply, smul_eq_mul] at *
        linarith

/-- C116.  One step: if no particle is made or lost in the step from `i` to `j`, and `j'` is `j` with the motion
reversed, the step from `j'` leads to `i` with the motion reversed. -/
theorem C116_step (he : 0 < eps) (hg : Grid co x N) {L : String → Bool} {qom : String → K} {locate : K → Nat} {σ φ : Type}
    {cfg cfg' : Cfg K V (Part K 1 ρ) σ φ} {sl sl' : Nat} {i j j' k' : Ideal K V (Part K 1 ρ) σ}
    (hdt : cfg'.dt = cfg.dt) (hw : cfg'.A.weight = cfg.A.weight) (hfac : cfg'.factor = cfg.factor)
    (hwt : ∀ q q', q.rest = q'.rest → cfg.A.weight q = cfg.A.weight q')
    (h : FieldStep eps co x N v0 vN L qom locate cfg sl i j) (hl : Lossless (x 0) L cfg sl i j)
    (hi : Placed x N locate i) (hj : Placed x N locate j)
    (hr : Reversed eps co x N v0 vN qom locate cfg j j')
    (h' : FieldStep eps co x N v0 vN L qom locate cfg' sl' j' k') (hm : ∀ s ∈ j'.pops, j'.made cfg' sl' s.name = []) :
    Reversed eps co x N v0 vN qom locate cfg i k' := by
  have hin : ∀ s ∈ i.pops, ∀ q ∈ s.st.items, x 0 ≤ q.x 0 ∧ q.x 0 ≤ x N := fun s hs q hq => by
    obtain ⟨h1, h2, h3⟩ := hi s hs q hq
    exact ⟨(grid_mono hg (Nat.zero_le _) (by omega)).trans h2, h3.trans (grid_mono hg (by omega) le_rfl)⟩
  obtain ⟨-, -, F, hF, hp⟩ := h
  obtain ⟨Fj, hFj, hpj⟩ := hr
  obtain ⟨-, -, F', hF', hp'⟩ := h'
  rw [hw, hfac, reversed_charges hwt _ hpj] at hF'
  rw [hdt] at hp'
  have hFF := C93_field_unique he hg hF' hFj
  have hloc : ∀ s ∈ j.pops, ∀ k ∈ s.st.items.map kin, F' (locate (k.1 0)) = Fj (locate (k.1 0)) := by
    intro s hs k hk
    obtain ⟨q, hq, rfl⟩ := List.mem_map.1 hk
    exact hFF _ (hj s hs q hq).1
  refine ⟨F, hF, ?_⟩
  clear hF hF' hFj hFF hi hj
  unfold Lossless at hl
  generalize i.pops = l at hp hl hin
  generalize j.pops = m at hp hl hpj hloc
  generalize hn : j'.pops = n at hp' hpj hm
  generalize k'.pops = o at hp'
  clear hn
  induction hp generalizing n o with
  | nil => cases hpj; cases hp'; exact .nil
  | @cons s t l m hst _ ih =>
    cases hl with
    | cons l1 l2 =>
    cases hpj with
    | @cons _ t' _ n' b1 b2 =>
    cases hp' with
    | cons c1 c2 =>
    refine .cons ?_ (ih (fun s' hs' => hin s' (by simp [hs'])) l2 (fun s' hs' => hloc s' (by simp [hs'])) _ b2 (fun s' hs' => hm s' (by simp [hs'])) _ c2)
    obtain ⟨e1, e2, -, -, e5⟩ := hst
    obtain ⟨l1, l3, l4⟩ := l1
    obtain ⟨f1, f2, f3⟩ := b1
    obtain ⟨g1, g2, -, -, g5⟩ := c1
    refine ⟨by rw [g1, f1, e1], by rw [g2, f2, e2], ?_⟩
    rw [l1, List.map_nil, List.append_nil] at e5
    rw [hm t' (by simp), List.map_nil, List.append_nil] at g5
    rw [g5, f3, f2, f1, e1, e2]
    by_cases hc : s.charge = 0
    · rw [if_pos hc] at e5
      simp only [if_pos hc]
      exact e5
    · rw [if_neg hc] at e5
      simp only [if_neg hc]
      have h1 : ∀ k ∈ (s.st.items.map kin).map (walledLeap (x 0) (L s.name) cfg.dt (qom s.name) (fun y => F (locate y))),
          decide (x 0 ≤ k.1 0 ∧ k.1 0 ≤ x N) = true := by
        rw [← List.length_filter_eq_length_iff, ← e5]
        simp [l3]
      rw [List.filter_eq_self.2 h1] at e5
      rw [e5, List.map_map, List.map_map]
      have h2 : ((s.st.items.map kin).map ((walledLeap (x 0) (L s.name) cfg.dt (qom s.name) (fun y => F' (locate y)) ∘
          flipped cfg.dt (qom s.name) (fun y => Fj (locate y))) ∘ walledLeap (x 0) (L s.name) cfg.dt (qom s.name) (fun y => F (locate y)))) =
          (s.st.items.map kin).map (flipped cfg.dt (qom s.name) (fun y => F (locate y))) := by
        refine List.map_congr_left fun k hk => ?_
        have hk' : walledLeap (x 0) (L s.name) cfg.dt (qom s.name) (fun y => F (locate y)) k ∈ t.st.items.map kin := by
          rw [e5]
          exact List.mem_map_of_mem hk
        have hG := hloc t (by simp) _ hk'
        obtain ⟨q, hq, rfl⟩ := List.mem_map.1 hk
        exact leap_back (F := fun y => F (locate y)) (F' := fun y => Fj (locate y)) (G := fun y => F' (locate y)) (hin s (by simp) q hq).1 (fun hL => l4 hL q hq) hG
      rw [h2]
      refine List.filter_eq_self.2 fun k hk => ?_
      obtain ⟨k0, hk0, rfl⟩ := List.mem_map.1 hk
      obtain ⟨q, hq, rfl⟩ := List.mem_map.1 hk0
      exact decide_eq_true (hin s (by simp) q hq)

theorem chain_and {α : Type} {R S : α → α → Prop} {l : List α} (h : l.IsChain R) (h' : l.IsChain S) : l.IsChain (fun a b => R a b ∧ S a b) := by
  induction l with
  | nil => exact .nil
  | cons a l ih =>
    cases l with
    | nil => exact .singleton _
    | cons b l =>
      rw [List.isChain_cons_cons] at h h' ⊢
      exact ⟨⟨h.1, h'.1⟩, ih h.2 h'.2⟩

theorem reverse_chain (he : 0 < eps) (hg : Grid co x N) {L : String → Bool} {qom : String → K} {locate : K → Nat} {σ φ : Type}
    {cfg cfg' : Cfg K V (Part K 1 ρ) σ φ} {sl sl' : Nat}
    (hdt : cfg'.dt = cfg.dt) (hw : cfg'.A.weight = cfg.A.weight) (hfac : cfg'.factor = cfg.factor) (hsrc : cfg'.sources = [])
    (hwt : ∀ q q', q.rest = q'.rest → cfg.A.weight q = cfg.A.weight q') :
    ∀ (js : List (Ideal K V (Part K 1 ρ) σ)) (j k : Ideal K V (Part K 1 ρ) σ) (ks : List (Ideal K V (Part K 1 ρ) σ)),
    (j :: js).IsChain (fun j i => FieldStep eps co x N v0 vN L qom locate cfg sl i j ∧ Lossless (x 0) L cfg sl i j) →
    (∀ i ∈ j :: js, Placed x N locate i) → (k :: ks).IsChain (FieldStep eps co x N v0 vN L qom locate cfg' sl') →
    js.length = ks.length → Reversed eps co x N v0 vN qom locate cfg j k →
    List.Forall₂ (Reversed eps co x N v0 vN qom locate cfg) (j :: js) (k :: ks) := by
  intro js
  induction js with
  | nil =>
    intro j k ks _ _ _ hl hr
    rw [List.length_eq_zero_iff.1 hl.symm]
    exact .cons hr .nil
  | cons i js ih =>
    intro j k ks hc hp hc' hl hr
    cases ks with
    | nil => simp at hl
    | cons k' ks =>
      rw [List.isChain_cons_cons] at hc hc'
      refine .cons hr (ih i k' ks hc.2 (fun i' hi' => hp i' (by simp [List.mem_cons.1 hi'])) hc'.2 (by simpa using hl) ?_)
      refine C116_step he hg hdt hw hfac hwt hc.1.1 hc.1.2 (hp i (by simp)) (hp j (by simp)) hr hc'.1 fun s _ => ?_
      unfold Ideal.made
      rw [hsrc]
      split
      · rfl
      · rfl

/-- C116.  If a simulation in which no particles are made or lost ends in a state `e`, another one, without sources,
that begins with the state `e` with the motion of the particles reversed goes through the same states in the opposite
order, with the motion reversed; so it ends with the particles in the positions in which the first one began. -/
theorem C116_run (he : 0 < eps) (hg : Grid co x N) {L : String → Bool} {qom : String → K} {locate : K → Nat} {σ φ : Type}
    {cfg cfg' : Cfg K V (Part K 1 ρ) σ φ} {sl sl' : Nat}
    (hdt : cfg'.dt = cfg.dt) (hw : cfg'.A.weight = cfg.A.weight) (hfac : cfg'.factor = cfg.factor) (hsrc : cfg'.sources = [])
    (hwt : ∀ q q', q.rest = q'.rest → cfg.A.weight q = cfg.A.weight q')
    {D D' : Nat} {onMesh onMesh' : Part K 1 ρ → Bool} {init init' : Option (List (String × List (Part K 1 ρ)))} {b b' : List K} {n : Nat}
    {i i' i0 k0 : Ideal K V (Part K 1 ρ) σ} {is ks : List (Ideal K V (Part K 1 ρ) σ)}
    (hr : Ideal.run cfg sl D onMesh init b n i = .ok (i0, is)) (hr' : Ideal.run cfg' sl' D' onMesh' init' b' n i' = .ok (k0, ks))
    (hf : (i0 :: is).IsChain (FieldStep eps co x N v0 vN L qom locate cfg sl))
    (hf' : (k0 :: ks).IsChain (FieldStep eps co x N v0 vN L qom locate cfg' sl'))
    (hpl : ∀ j ∈ i0 :: is, Placed x N locate j) (hll : (i0 :: is).IsChain (Lossless (x 0) L cfg sl))
    (hrev : Reversed eps co x N v0 vN qom locate cfg ((i0 :: is).getLast (by simp)) k0) :
    List.Forall₂ (Reversed eps co x N v0 vN qom locate cfg) (i0 :: is).reverse (k0 :: ks) := by
  have len : ∀ {c : Cfg K V (Part K 1 ρ) σ φ} {sl D : Nat} {on : Part K 1 ρ → Bool} {init : Option (List (String × List (Part K 1 ρ)))}
      {b : List K} {i i0 : Ideal K V (Part K 1 ρ) σ} {is : List (Ideal K V (Part K 1 ρ) σ)},
      Ideal.run c sl D on init b n i = .ok (i0, is) → is.length = n := by
    intro c sl D on init b i i0 is hr
    unfold Ideal.run at hr
    split at hr
    · cases hr
    · split at hr
      · cases hr
      · rename_i h2
        cases hr
        exact (steps_ok_chain n h2).1
  have hlen : (i0 :: is).length = (k0 :: ks).length := by simp [len hr, len hr']
  have hne : i0 :: is ≠ [] := by simp
  have hchain : (i0 :: is).reverse.IsChain (fun j i => FieldStep eps co x N v0 vN L qom locate cfg sl i j ∧ Lossless (x 0) L cfg sl i j) :=
    List.isChain_reverse.2 (chain_and hf hll)
  have hhead : (i0 :: is).reverse = (i0 :: is).getLast hne :: (i0 :: is).reverse.tail := by
    rw [← List.head_reverse (by simp)]
    exact (List.cons_head_tail _).symm
  rw [hhead] at hchain ⊢
  refine reverse_chain he hg hdt hw hfac hsrc hwt _ _ _ _ hchain (fun j hj => hpl j ?_) hf' ?_ hrev
  · rw [← hhead] at hj
    exact List.mem_reverse.1 hj
  · simp only [List.length_tail, List.length_reverse, hlen, List.length_cons]
    omega

end

/-! ### Two electrons between grounded plates, there and back -/

section Demo

/-- Two electrons; the first is reflected at the lower plate in the first step. -/
def couple : List SimPart := [demoPart (1 / 2) (-3 / 2) 0 false, demoPart (9 / 4) (1 / 4) 2 false]

/-- The same electrons after two steps, with the motion reversed. -/
def coupleBack : List SimPart := [demoPart (19 / 16) (-1933 / 1152) 1 false, demoPart (565 / 192) (-587 / 576) 2 false]

/-- The field after two steps. -/
def coupleF (c : Nat) : ℚ := [359 / 576, -109 / 576, -125 / 288].getD c 0

instance {a : ℚ} {L : String → Bool} {cfg : Cfg ℚ ℚ SimPart (Unit × Vec ℚ 1) (List ℚ)} {sl : Nat}
    (i j : Ideal ℚ ℚ SimPart (Unit × Vec ℚ 1)) : Decidable (Lossless a L cfg sl i j) :=
  inferInstanceAs (Decidable (List.Forall₂ (fun s s' => i.made cfg sl s.name = [] ∧ s'.st.items.length = s.st.items.length ∧
    (L s.name = true → ∀ q ∈ s.st.items, a < q.x 0)) i.pops j.pops))

theorem couple_field : IsField 1 .cartesian sheetX 3 (.num 0) 0 [(-1, 19 / 16), (-1, 565 / 192)] coupleF := by
  refine ⟨359 / 576, ?_, ?_, ?_⟩
  · decide +kernel
  · intro h; cases h
  · intro v hv
    cases hv
    decide +kernel

/-- C116 applies. -/
example {i0 k0 : Ideal ℚ ℚ SimPart (Unit × Vec ℚ 1)} {is ks : List (Ideal ℚ ℚ SimPart (Unit × Vec ℚ 1))}
    (hr : sheetRun couple 2 = .ok (i0, is)) (hr' : sheetRun coupleBack 2 = .ok (k0, ks)) :
    List.Forall₂ (Reversed 1 .cartesian sheetX 3 (.num 0) 0 (fun _ => -1) sheetLocate sheetCfg) (i0 :: is).reverse (k0 :: ks) := by
  obtain ⟨-, h2, h3, -⟩ := sheet_chain couple (by
    intro q hq
    simp only [couple, List.mem_cons, List.not_mem_nil, or_false] at hq
    rcases hq with rfl | rfl <;> exact ⟨by unfold InItsCell; decide +kernel, rfl⟩) 2 hr
  obtain ⟨-, h2', -, -⟩ := sheet_chain coupleBack (by
    intro q hq
    simp only [coupleBack, List.mem_cons, List.not_mem_nil, or_false] at hq
    rcases hq with rfl | rfl <;> exact ⟨by unfold InItsCell; decide +kernel, rfl⟩) 2 hr'
  have a1 : (sheetRun couple 2).toOption.map (fun r => (decide ((r.1 :: r.2).IsChain (Lossless (sheetX 0) (fun _ => true) sheetCfg 2)),
      chargesOf sheetCfg.A.weight (sheetCfg.factor.getD 1) ((r.1 :: r.2).getLast (by simp)).pops)) =
      some (true, [(-1, 19 / 16), (-1, 565 / 192)]) := by decide +kernel
  have a2 : ((sheetRun couple 2).toOption.bind fun r => (sheetRun coupleBack 2).toOption.map fun r' =>
      decide (List.Forall₂ (fun s s' : Pop ℚ ℚ SimPart => s'.name = s.name ∧ s'.charge = s.charge ∧
        s'.st.items.map kin = if s.charge = 0 then s.st.items.map kin
        else (s.st.items.map kin).map (flipped sheetCfg.dt (-1) (fun y => coupleF (sheetLocate y))))
        ((r.1 :: r.2).getLast (by simp)).pops r'.1.pops)) = some true := by decide +kernel
  rw [hr] at a1
  rw [hr, hr'] at a2
  simp only [Except.toOption, Option.map_some, Option.bind_some, Option.some.injEq, Prod.mk.injEq, decide_eq_true_eq] at a1 a2
  exact C116_run one_pos sheet_grid rfl rfl rfl rfl (fun _ _ _ => rfl) hr hr' h2 h2' h3 a1.1 ⟨coupleF, by rw [a1.2]; exact couple_field, a2⟩
example : (sheetRun couple 2).toOption.isSome = true ∧ (sheetRun coupleBack 2).toOption.isSome = true := by decide +kernel

end Demo

end Dt
