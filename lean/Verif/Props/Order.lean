import Verif.Spec.Order
import Verif.Props.SelfForce

/-!
# The order of the particles (C113)
-/

set_option linter.unusedSectionVars false

namespace Dt
open Spec Poisson TimeLoop
variable {K V : Type} [Field K] [LinearOrder K] [IsStrictOrderedRing K] {ρ : Type}

section
variable {x : Nat → K} {N : Nat} {eps : K} {co : Coord} {v0 : Val K} {vN : K}

theorem charges_perm₀ {weight : Part K 1 ρ → K} (hwt : ∀ q q', q.rest = q'.rest → weight q = weight q') (factor : K)
    {l l' : List (Pop K V (Part K 1 ρ))} (h : List.Forall₂ (fun s s' => s'.charge = s.charge ∧ (s'.st.items.map kin).Perm (s.st.items.map kin)) l l') :
    (chargesOf weight factor l').Perm (chargesOf weight factor l) := by
  unfold chargesOf
  induction h with
  | nil => exact .refl _
  | @cons s s' l l' hs _ ih =>
    obtain ⟨e2, e5⟩ := hs
    rw [List.flatMap_cons, List.flatMap_cons]
    refine List.Perm.append ?_ ih
    rw [e2]
    -- the charges are a function of `kin`
    have key : ∀ xs ys : List (Part K 1 ρ), (xs.map kin).Perm (ys.map kin) →
        (xs.map (fun q => (s.charge * weight q * factor, q.x 0))).Perm (ys.map (fun q => (s.charge * weight q * factor, q.x 0))) := by
      intro xs
      induction xs with
      | nil =>
        intro ys h
        have h := h.nil_eq
        have : ys = [] := by simpa using h.symm
        rw [this]
      | cons q xs ih =>
        intro ys h
        have hm : kin q ∈ ys.map kin := h.mem_iff.1 (by simp)
        obtain ⟨q', hq', ek⟩ := List.mem_map.1 hm
        obtain ⟨a, b, rfl⟩ := List.append_of_mem hq'
        rw [List.map_cons, List.map_append, List.map_cons, ek] at h
        have h2 := (h.trans List.perm_middle).cons_inv
        rw [← List.map_append] at h2
        have h3 := ih _ h2
        rw [List.map_append] at h3
        rw [List.map_cons, List.map_append, List.map_cons]
        have e : ((s.charge * weight q' * factor, q'.x 0) : K × K) = (s.charge * weight q * factor, q.x 0) := by
          simp only [kin, Prod.mk.injEq] at ek
          rw [hwt q' q ek.2.2, ek.1]
        rw [e]
        exact (h3.cons _).trans List.perm_middle.symm
    exact key _ _ e5

theorem charges_perm {weight : Part K 1 ρ → K} (hwt : ∀ q q', q.rest = q'.rest → weight q = weight q') (factor : K)
    {l l' : List (Pop K V (Part K 1 ρ))} (h : Shuffled l l') :
    (chargesOf weight factor l').Perm (chargesOf weight factor l) :=
  charges_perm₀ hwt factor (h.imp fun _ _ k => ⟨k.2.1, k.2.2.2.2⟩)

theorem isField_perm {charges charges' : List (K × K)} (hp : charges'.Perm charges) {F : Nat → K}
    (h : IsField eps co x N v0 vN charges F) : IsField eps co x N v0 vN charges' F := by
  obtain ⟨A, h1, h2, h3⟩ := h
  refine ⟨A, fun c hc => ?_, h2, h3⟩
  rw [h1 c hc, (hp.map _).sum_eq]

/-- C113.  One step: whatever the order of the particles, the same particles are there after the step. -/
theorem C113_step (he : 0 < eps) (hg : Grid co x N) {L : String → Bool} {qom : String → K} {locate : K → Nat} {σ φ : Type}
    {cfg cfg' : Cfg K V (Part K 1 ρ) σ φ} {sl sl' : Nat} {i i' j j' : Ideal K V (Part K 1 ρ) σ} (hsame : SameSetup cfg cfg')
    (hwt : ∀ q q', q.rest = q'.rest → cfg.A.weight q = cfg.A.weight q')
    (h : FieldStep eps co x N v0 vN L qom locate cfg sl i j) (h' : FieldStep eps co x N v0 vN L qom locate cfg' sl' i' j')
    (hi : Placed x N locate i) (hs : Shuffled i.pops i'.pops)
    (hm : ∀ name, ((i'.made cfg' sl' name).map kin).Perm ((i.made cfg sl name).map kin)) :
    Shuffled j.pops j'.pops := by
  obtain ⟨-, -, F, hF, hp⟩ := h
  obtain ⟨-, -, F', hF', hp'⟩ := h'
  rw [hsame.weight, hsame.factor] at hF'
  have hFF := C93_field_unique he hg (isField_perm (charges_perm hwt (cfg.factor.getD 1) hs).symm hF') hF
  have hloc : ∀ s ∈ i.pops, ∀ k ∈ s.st.items.map kin, F' (locate (k.1 0)) = F (locate (k.1 0)) := by
    intro s hs k hk
    obtain ⟨q, hq, rfl⟩ := List.mem_map.1 hk
    exact hFF _ (hi s hs q hq).1
  clear hF hF' hFF hi
  rw [hsame.dt] at hp'
  unfold Shuffled at hs ⊢
  generalize i.pops = l at hp hs hloc
  generalize i'.pops = l' at hp' hs
  generalize j.pops = m at hp
  generalize j'.pops = m' at hp'
  induction hs generalizing m m' with
  | nil => cases hp; cases hp'; exact .nil
  | @cons s s' l l' hss _ ih =>
    cases hp with
    | cons a1 a2 =>
    cases hp' with
    | cons b1 b2 =>
    refine .cons ?_ (ih (fun t ht => hloc t (by simp [ht])) _ a2 _ b2)
    obtain ⟨e1, e2, e3, e4, e5⟩ := hss
    obtain ⟨c1, c2, c3, c4, c5⟩ := a1
    obtain ⟨d1, d2, d3, d4, d5⟩ := b1
    refine ⟨by rw [d1, c1, e1], by rw [d2, c2, e2], by rw [d3, c3, e3], by rw [d4, c4, e4], ?_⟩
    rw [c5, d5, e1, e2]
    refine List.Perm.append ?_ (hm _)
    split
    · exact e5
    · have hmap : ((s.st.items.map kin).map (walledLeap (x 0) (L s.name) cfg.dt (qom s.name) (fun y => F (locate y)))) =
          ((s.st.items.map kin).map (walledLeap (x 0) (L s.name) cfg.dt (qom s.name) (fun y => F' (locate y)))) := by
        refine List.map_congr_left fun k hk => ?_
        unfold walledLeap
        dsimp only
        rw [hloc s (by simp) k hk]
      rw [hmap]
      exact (e5.map _).filter _

theorem created_steady {α : Type} {σ : Type} (name : String) (count : Int) (time : K) {ss : List (Src K α σ)} (h : ∀ s ∈ ss, Steady s) (side side' : σ) :
    created name count time ss side = created name count time ss side' := by
  induction ss generalizing side side' with
  | nil => rfl
  | cons s ss ih =>
    have hs := h s (by simp) count time side side'
    have ih := ih (fun t ht => h t (by simp [ht]))
    unfold created
    split
    · cases e : s.make count time side with
      | error a =>
        cases e' : s.make count time side' with
        | error a' => rfl
        | ok r' => rw [e, e'] at hs; cases hs
      | ok r =>
        cases e' : s.make count time side' with
        | error a' => rw [e, e'] at hs; cases hs
        | ok r' =>
          rw [e, e'] at hs
          simp only [Except.map, Except.ok.injEq] at hs
          obtain ⟨r1, r2⟩ := r
          obtain ⟨r1', r2'⟩ := r'
          simp only at hs
          simp only [hs, ih r1 r1']
    · exact ih side side'

theorem made_steady {α σ φ : Type} {cfg : Cfg K V α σ φ} (hst : ∀ s ∈ cfg.sources, Steady s) {sl D : Nat} {onMesh : α → Bool} {i j : Ideal K V α σ}
    (h : i.step cfg sl D onMesh = .ok j) (name : String) (side : σ) :
    i.made cfg sl name = created name (i.count + 1) (i.time + cfg.dt) cfg.sources side := by
  unfold Ideal.step at h
  unfold Ideal.made
  dsimp only at h
  split at h
  · cases h
  · rename_i ps s' e
    exact created_steady name _ _ hst _ _

theorem steps_ok_chain {α σ φ : Type} {cfg : Cfg K V α σ φ} {sl D : Nat} {onMesh : α → Bool} (n : Nat) {i : Ideal K V α σ} {is : List (Ideal K V α σ)}
    (h : Ideal.steps cfg sl D onMesh n i = .ok is) : is.length = n ∧ (i :: is).IsChain (fun i j => i.step cfg sl D onMesh = .ok j) := by
  induction n generalizing i is with
  | zero =>
    simp only [Ideal.steps, Except.ok.injEq] at h
    subst h
    exact ⟨rfl, .singleton _⟩
  | succ n ih =>
    simp only [Ideal.steps] at h
    split at h
    · cases h
    · rename_i i1 h1
      split at h
      · cases h
      · rename_i is1 h2
        cases h
        obtain ⟨a, b⟩ := ih h2
        exact ⟨by simp [a], .cons_cons h1 b⟩

theorem start_all {α σ φ : Type} {cfg : Cfg K V α σ φ} {sl D : Nat} {onMesh : α → Bool}
    {init : Option (List (String × List α))} {b : List K} {i i0 : Ideal K V α σ}
    (hn : (i.pops.map (·.name)).Nodup) (h : i.start cfg sl D onMesh init b = .ok i0) :
    i0.count = i.count ∧ i0.time = i.time ∧
    List.Forall₂ (fun p p' => p'.name = p.name ∧ p'.charge = p.charge ∧ p'.mass = p.mass ∧ p'.index = p.index ∧
      p'.st.items = p.st.items ++ given init p.name) i.pops i0.pops := by
  cases init with
  | none =>
    simp only [Ideal.start, Except.ok.injEq] at h
    rw [← h]
    refine ⟨rfl, rfl, ?_⟩
    rw [List.forall₂_same]
    simp [given]
  | some gs =>
    simp only [Ideal.start] at h
    split at h
    · cases h
    · rename_i ps hps
      have a1 : List.Forall₂ (fun p p' => p'.name = p.name ∧ p'.charge = p.charge ∧ p'.mass = p.mass ∧ p'.index = p.index ∧
          p'.st.items = p.st.items ++ given (some gs) p.name) i.pops ps := by
        clear h
        generalize i.pops = ps0 at hn hps
        induction gs generalizing ps0 with
        | nil =>
          simp only [Spec.appendGroups, Except.ok.injEq] at hps
          rw [← hps, List.forall₂_same]
          simp [given]
        | cons g gs ih =>
          simp only [Spec.appendGroups] at hps
          split at hps
          · cases hps
          · rename_i ps1 h1
            have a1 := appendTo_at hn h1
            have a2 := ih _ (by rw [forall₂_names a1 (fun _ _ k => k.1)]; exact hn) hps
            refine forall₂_trans' ?_ a1 a2
            rintro a b c ⟨n1, c1, m1, k1, e1⟩ ⟨n2, c2, m2, k2, e2⟩
            refine ⟨n2.trans n1, c2.trans c1, m2.trans m1, k2.trans k1, ?_⟩
            rw [e2, e1, n1]
            simp [given]
      unfold Spec.settle at h
      split at h
      · cases h
        refine ⟨rfl, rfl, ?_⟩
        simp only [List.forall₂_map_right_iff]
        exact a1.imp (fun a b k => k)
      · cases h

/-- C113.  Two simulations (of C93 or C111) that differ in the order of the initial particles, in the length of the
segments of the containers, in the limits on crossings, the output intervals, ... have the same particles after each
step. -/
theorem C113_run (he : 0 < eps) (hg : Grid co x N) {L : String → Bool} {qom : String → K} {locate : K → Nat} {σ φ : Type}
    {cfg cfg' : Cfg K V (Part K 1 ρ) σ φ} {sl sl' : Nat} (hsame : SameSetup cfg cfg')
    (hwt : ∀ q q', q.rest = q'.rest → cfg.A.weight q = cfg.A.weight q') (hst : ∀ s ∈ cfg.sources, Steady s)
    {D D' : Nat} {onMesh onMesh' : Part K 1 ρ → Bool} {init init' : Option (List (String × List (Part K 1 ρ)))} {b b' : List K} {n : Nat}
    {i i' : Ideal K V (Part K 1 ρ) σ} {i0 i0' : Ideal K V (Part K 1 ρ) σ} {is is' : List (Ideal K V (Part K 1 ρ) σ)}
    (hr : Ideal.run cfg sl D onMesh init b n i = .ok (i0, is)) (hr' : Ideal.run cfg' sl' D' onMesh' init' b' n i' = .ok (i0', is'))
    (hf : (i0 :: is).IsChain (FieldStep eps co x N v0 vN L qom locate cfg sl))
    (hf' : (i0' :: is').IsChain (FieldStep eps co x N v0 vN L qom locate cfg' sl'))
    (hpl : ∀ j ∈ i0 :: is, Placed x N locate j)
    (hn : (i.pops.map (·.name)).Nodup) (hc : i'.count = i.count) (ht : i'.time = i.time)
    (hp : Shuffled i.pops i'.pops) (hg0 : ∀ name, ((given init' name).map kin).Perm ((given init name).map kin)) :
    List.Forall₂ (fun j j' => j'.count = j.count ∧ j'.time = j.time ∧ Shuffled j.pops j'.pops) (i0 :: is) (i0' :: is') := by
  have split : ∀ {c : Cfg K V (Part K 1 ρ) σ φ} {sl D : Nat} {on : Part K 1 ρ → Bool} {init : Option (List (String × List (Part K 1 ρ)))}
      {b : List K} {i i0 : Ideal K V (Part K 1 ρ) σ} {is : List (Ideal K V (Part K 1 ρ) σ)},
      Ideal.run c sl D on init b n i = .ok (i0, is) → i.start c sl D on init b = .ok i0 ∧ Ideal.steps c sl D on n i0 = .ok is := by
    intro c sl D on init b i i0 is hr
    unfold Ideal.run at hr
    split at hr
    · cases hr
    · rename_i h1
      split at hr
      · cases hr
      · rename_i h2
        cases hr
        exact ⟨h1, h2⟩
  obtain ⟨s1, s2⟩ := split hr
  obtain ⟨s1', s2'⟩ := split hr'
  have hnames : i'.pops.map (·.name) = i.pops.map (·.name) := forall₂_names hp (fun _ _ k => k.1)
  obtain ⟨a1, a2, a3⟩ := start_all hn s1
  obtain ⟨a1', a2', a3'⟩ := start_all (hnames ▸ hn) s1'
  have h0 : Shuffled i0.pops i0'.pops := by
    clear split hr hr' hf hf' hpl s1 s1' s2 s2' a1 a2 a1' a2' hn hnames
    unfold Shuffled at hp ⊢
    generalize i.pops = l at hp a3
    generalize i'.pops = l' at hp a3'
    generalize i0.pops = m at a3
    generalize i0'.pops = m' at a3'
    induction hp generalizing m m' with
    | nil => cases a3; cases a3'; exact .nil
    | @cons s s' l l' hss _ ih =>
      cases a3 with
      | cons b1 b2 =>
      cases a3' with
      | cons c1 c2 =>
      refine .cons ?_ (ih _ b2 _ c2)
      obtain ⟨e1, e2, e3, e4, e5⟩ := hss
      obtain ⟨f1, f2, f3, f4, f5⟩ := b1
      obtain ⟨g1, g2, g3, g4, g5⟩ := c1
      refine ⟨by rw [g1, f1, e1], by rw [g2, f2, e2], by rw [g3, f3, e3], by rw [g4, f4, e4], ?_⟩
      rw [f5, g5, List.map_append, List.map_append, e1]
      exact e5.append (hg0 _)
  have hc0 : i0'.count = i0.count := by rw [a1, a1', hc]
  have ht0 : i0'.time = i0.time := by rw [a2, a2', ht]
  obtain ⟨l1, ch⟩ := steps_ok_chain n s2
  obtain ⟨l2, ch'⟩ := steps_ok_chain n s2'
  clear split hr hr' s1 s1' s2 s2' a1 a2 a3 a1' a2' a3' hn hnames hp hg0 hc ht
  induction n generalizing i0 i0' is is' with
  | zero =>
    rw [List.length_eq_zero_iff.1 l1, List.length_eq_zero_iff.1 l2]
    exact .cons ⟨hc0, ht0, h0⟩ .nil
  | succ n ih =>
    obtain ⟨j, js, rfl⟩ := List.exists_cons_of_length_eq_add_one l1
    obtain ⟨j', js', rfl⟩ := List.exists_cons_of_length_eq_add_one l2
    rw [List.isChain_cons_cons] at hf hf' ch ch'
    refine .cons ⟨hc0, ht0, h0⟩ (ih hf.2 hf'.2 (fun k hk => hpl k (by simp [List.mem_cons.1 hk])) ?_ ?_ ?_ (by simpa using l1) ch.2 (by simpa using l2) ch'.2)
    · refine C113_step he hg hsame hwt hf.1 hf'.1 (hpl _ (by simp)) h0 fun name => ?_
      rw [made_steady hst ch.1 name i0.side, made_steady (hsame.sources ▸ hst) ch'.1 name i0.side, hc0, ht0, hsame.dt, hsame.sources]
    · rw [hf.1.1, hf'.1.1, hc0]
    · rw [hf.1.2.1, hf'.1.2.1, ht0, hsame.dt]

end

section Demo

theorem trio_present {xs : List SimPart} (hp : xs.Perm trio) : ∀ q ∈ xs,
    Present (le_refl 1) (lineMesh sheetX 3 (fun F => if F = 0 then 1 else if F = 3 then 2 else 0)) q := by
  intro q hq
  have hq := hp.mem_iff.1 hq
  simp only [trio, List.mem_cons, List.not_mem_nil, or_false] at hq
  rcases hq with rfl | rfl | rfl <;> exact ⟨by unfold InItsCell; decide +kernel, rfl⟩

/-- C113 applies to the three electrons of C112, in any order and for any number of steps. -/
example {xs : List SimPart} (hp : xs.Perm trio) (n : Nat) {i0 i0' : Ideal ℚ ℚ SimPart (Unit × Vec ℚ 1)} {is is' : List (Ideal ℚ ℚ SimPart (Unit × Vec ℚ 1))}
    (hr : sheetRun trio n = .ok (i0, is)) (hr' : sheetRun xs n = .ok (i0', is')) :
    List.Forall₂ (fun j j' => j'.count = j.count ∧ j'.time = j.time ∧ Shuffled j.pops j'.pops) (i0 :: is) (i0' :: is') := by
  obtain ⟨-, h2, h3, -⟩ := sheet_chain trio (trio_present (.refl _)) n hr
  obtain ⟨-, h2', -, -⟩ := sheet_chain xs (trio_present hp) n hr'
  refine C113_run one_pos sheet_grid (cfg := sheetCfg) ⟨rfl, rfl, rfl, rfl⟩ (fun _ _ _ => rfl) (fun s hs => by cases hs) hr hr' h2 h2' h3
    (by decide) rfl rfl ?_ fun name => ?_
  · exact List.forall₂_same.2 fun _ _ => ⟨rfl, rfl, rfl, rfl, .refl _⟩
  · simp only [given, Option.getD_some, List.flatMap_cons, List.flatMap_nil, List.append_nil]
    split
    · exact hp.map _
    · exact .refl _
example : (sheetRun trio 3).toOption.isSome = true ∧ (sheetRun trio.reverse 3).toOption.isSome = true := by decide +kernel

/-- The simulation with a source of one electron per step. -/
def fedCfg : Cfg ℚ ℚ SimPart (Unit × Vec ℚ 1) (List ℚ) :=
  { sheetCfg with sources := [⟨"left", "e", 1, fun _ _ side => .ok (side, [demoPart (1 / 4) 1 0 false])⟩] }

abbrev fedRun (xs : List SimPart) (n : Nat) :
    Except Fault (Ideal ℚ ℚ SimPart (Unit × Vec ℚ 1) × List (Ideal ℚ ℚ SimPart (Unit × Vec ℚ 1))) :=
  Ideal.run fedCfg 2 4 (inLine sheetX 3) (some [("e", xs)]) [0, 0, 0, 0] n simIdeal

def lostFirst : List SimPart := [demoPart (5 / 2) 9 2 false, demoPart (3 / 2) 0 1 false, demoPart (1 / 2) 0 0 false]

theorem fed_good : GoodCfg fedCfg := by
  obtain ⟨h1, h2, h3, h4, h5⟩ := sim_good []
  exact ⟨h1, h2, h3, h4, h5⟩

theorem fed_electro : Spec.Electro fedCfg sheetX 3 sheetMarks sheetSolver (fun k => k) 3 :=
  ⟨rfl, rfl, rfl, sheet_solves, rfl, rfl, ⟨fun _ _ => rfl, fun _ _ _ _ h => h, fun _ h => h⟩⟩

/-- C113 is false as far as failures go: with three electrons of which the last leaves the mesh in the first step, the
simulation stops with an AssertionError when the source adds a particle; if the same electron comes first, it runs. -/
theorem C113_false_failure : ∃ xs ys : List SimPart, xs.Perm ys ∧
    run fedCfg (some [("e", xs)]) 1 (simState 1) = .error .assertion ∧
    ∃ st', run fedCfg (some [("e", ys)]) 1 (simState 1) = .ok st' := by
  refine ⟨lostFirst.reverse, lostFirst, List.reverse_perm _, ?_, ?_⟩
  · have key := C68_run fed_good fed_electro.goodMesh 1 (some [("e", lostFirst.reverse)]) (sim_fresh 1) (fun h => by cases h)
    have h : (fedRun lostFirst.reverse 1).map (fun _ => ()) = .error (.raises .assertion) := by decide +kernel
    cases hr : fedRun lostFirst.reverse 1 with
    | error f =>
      rw [hr] at h
      rw [show Ideal.run fedCfg 2 (3 + 1) (inLine sheetX 3) (some [("e", lostFirst.reverse)]) [0, 0, 0, 0] 1 simIdeal = _ from hr] at key
      cases h
      exact key
    | ok r => rw [hr] at h; cases h
  · have key := C68_run fed_good fed_electro.goodMesh 1 (some [("e", lostFirst)]) (sim_fresh 1) (fun h => by cases h)
    have h : (fedRun lostFirst 1).toOption.isSome = true := by decide +kernel
    cases hr : fedRun lostFirst 1 with
    | error f => rw [hr] at h; cases h
    | ok r =>
      rw [show Ideal.run fedCfg 2 (3 + 1) (inLine sheetX 3) (some [("e", lostFirst)]) [0, 0, 0, 0] 1 simIdeal = _ from hr] at key
      obtain ⟨-, st', h, -⟩ := key
      exact ⟨st', h⟩

end Demo

end Dt
