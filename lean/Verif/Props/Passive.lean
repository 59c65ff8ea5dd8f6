import Verif.Spec.Passive
import Verif.Props.Order

/-!
# Neutral species and particles without weight act on nothing (C115)
-/

set_option linter.unusedSectionVars false

namespace Dt
open Spec Poisson TimeLoop
variable {K V : Type} [Field K] [LinearOrder K] [IsStrictOrderedRing K] {ρ : Type}

section
variable {x : Nat → K} {N : Nat} {eps : K} {co : Coord} {v0 : Val K} {vN : K}

/-- The field depends on the charges of the active particles only. -/
theorem isField_active {weight : Part K 1 ρ → K} {factor : K} {l : List (Pop K V (Part K 1 ρ))} {F : Nat → K} :
    IsField eps co x N v0 vN (chargesOf weight factor (active weight l)) F ↔ IsField eps co x N v0 vN (chargesOf weight factor l) F := by
  have key : ∀ g : K → K, ((chargesOf weight factor (active weight l)).map (fun q => q.1 * g q.2)).sum =
      ((chargesOf weight factor l).map (fun q => q.1 * g q.2)).sum := by
    intro g
    unfold chargesOf active
    induction l with
    | nil => rfl
    | cons s l ih =>
      rw [List.flatMap_cons, List.map_append, List.sum_append, ← ih]
      by_cases hs : s.charge = 0
      · rw [List.filter_cons_of_neg (by simpa using hs)]
        have : ∀ xs : List (Part K 1 ρ), ((xs.map (fun q => (s.charge * weight q * factor, q.x 0))).map (fun q : K × K => q.1 * g q.2)).sum = 0 := by
          intro xs
          induction xs with
          | nil => rfl
          | cons q xs ih =>
            rw [List.map_cons, List.map_cons, List.sum_cons, ih]
            dsimp only
            rw [hs]
            ring
        rw [this, zero_add]
      · rw [List.filter_cons_of_pos (by simpa using hs), List.map_cons, List.flatMap_cons, List.map_append, List.sum_append]
        congr 1
        dsimp only
        unfold weighty
        generalize s.st.items = xs
        induction xs with
        | nil => rfl
        | cons q xs ih =>
          by_cases hq : weight q = 0
          · rw [List.filter_cons_of_neg (by simpa using hq), ih]
            simp only [List.map_cons, List.sum_cons, hq]
            ring
          · rw [List.filter_cons_of_pos (by simpa using hq)]
            simp only [List.map_cons, List.sum_cons, ih]
  unfold Spec.IsField
  simp only [key]

theorem weighty_kin {weight : Part K 1 ρ → K} (hwt : ∀ q q', q.rest = q'.rest → weight q = weight q') :
    ∃ w : ρ → Bool, ∀ xs : List (Part K 1 ρ), (weighty weight xs).map kin = (xs.map kin).filter (fun k => w k.2.2) := by
  classical
  refine ⟨fun r => decide (∃ q : Part K 1 ρ, q.rest = r ∧ weight q ≠ 0), fun xs => ?_⟩
  unfold weighty
  rw [List.filter_map]
  congr 1
  refine List.filter_congr fun q _ => ?_
  rw [Bool.eq_iff_iff]
  simp only [Function.comp]
  rw [decide_eq_true_iff, decide_eq_true_iff]
  exact ⟨fun h => ⟨q, rfl, h⟩, fun ⟨q', h, h'⟩ => hwt q' q h ▸ h'⟩

theorem weighty_append (weight : Part K 1 ρ → K) (xs ys : List (Part K 1 ρ)) :
    weighty weight (xs ++ ys) = weighty weight xs ++ weighty weight ys := List.filter_append _ _

/-- Related species have related active parts. -/
theorem active_forall₂ {weight : Part K 1 ρ → K} {R R' : Pop K V (Part K 1 ρ) → Pop K V (Part K 1 ρ) → Prop} {l m : List (Pop K V (Part K 1 ρ))}
    (h : List.Forall₂ R l m) (hc : ∀ s s', R s s' → s'.charge = s.charge)
    (hR : ∀ s s', s.charge ≠ 0 → R s s' → R' { s with st := ⟨weighty weight s.st.items, s.st.stale⟩ } { s' with st := ⟨weighty weight s'.st.items, s'.st.stale⟩ }) :
    List.Forall₂ R' (active weight l) (active weight m) := by
  unfold active
  induction h with
  | nil => exact .nil
  | @cons s s' l m h1 _ ih =>
    by_cases hs : s.charge = 0
    · rw [List.filter_cons_of_neg (by simpa using hs), List.filter_cons_of_neg (by simpa [hc _ _ h1] using hs)]
      exact ih
    · rw [List.filter_cons_of_pos (by simpa using hs), List.filter_cons_of_pos (by simpa [hc _ _ h1] using hs)]
      exact .cons (hR _ _ hs h1) ih

theorem active_names {weight : Part K 1 ρ → K} {l : List (Pop K V (Part K 1 ρ))} {s : Pop K V (Part K 1 ρ)} (h : s ∈ active weight l) :
    s.charge ≠ 0 ∧ ∃ p ∈ l, p.name = s.name ∧ ∀ q ∈ s.st.items, q ∈ p.st.items := by
  unfold active at h
  obtain ⟨p, hp, rfl⟩ := List.mem_map.1 h
  obtain ⟨hp, hc⟩ := List.mem_filter.1 hp
  exact ⟨by simpa using hc, p, hp, rfl, fun q hq => (List.mem_filter.1 hq).1⟩

/-- C115.  One step: the active particles of two simulations stay the same, whatever else is in them. -/
theorem C115_step (he : 0 < eps) (hg : Grid co x N) {L : String → Bool} {qom : String → K} {locate : K → Nat} {σ φ : Type}
    {cfg cfg' : Cfg K V (Part K 1 ρ) σ φ} {sl sl' : Nat} {i i' j j' : Ideal K V (Part K 1 ρ) σ}
    (hdt : cfg'.dt = cfg.dt) (hw : cfg'.A.weight = cfg.A.weight) (hfac : cfg'.factor = cfg.factor)
    (hwt : ∀ q q', q.rest = q'.rest → cfg.A.weight q = cfg.A.weight q')
    (h : FieldStep eps co x N v0 vN L qom locate cfg sl i j) (h' : FieldStep eps co x N v0 vN L qom locate cfg' sl' i' j')
    (hi : Placed x N locate i) (hs : SameActive cfg.A.weight i.pops i'.pops)
    (hm : ∀ s ∈ active cfg.A.weight i.pops, ((weighty cfg.A.weight (i'.made cfg' sl' s.name)).map kin).Perm
      ((weighty cfg.A.weight (i.made cfg sl s.name)).map kin)) :
    SameActive cfg.A.weight j.pops j'.pops := by
  obtain ⟨-, -, F, hF, hp⟩ := h
  obtain ⟨-, -, F', hF', hp'⟩ := h'
  rw [hw, hfac] at hF'
  rw [hdt] at hp'
  have hFF : ∀ c < N, F' c = F c := by
    rw [← isField_active] at hF hF'
    exact C93_field_unique he hg (isField_perm (charges_perm₀ hwt (cfg.factor.getD 1) (hs.imp fun _ _ k => k.2)).symm hF') hF
  obtain ⟨w, hk⟩ := weighty_kin hwt
  -- the active particles make the step
  have act : ∀ {F : Nat → K} {l m : List (Pop K V (Part K 1 ρ))} {mk : String → List (Part K 1 ρ)},
      List.Forall₂ (fun s s' => s'.name = s.name ∧ s'.charge = s.charge ∧ s'.mass = s.mass ∧ s'.index = s.index ∧
        s'.st.items.map kin =
          (if s.charge = 0 then s.st.items.map kin
           else ((s.st.items.map kin).map (walledLeap (x 0) (L s.name) cfg.dt (qom s.name) (fun y => F (locate y)))).filter
            (fun k => decide (x 0 ≤ k.1 0 ∧ k.1 0 ≤ x N))) ++ (mk s.name).map kin) l m →
      List.Forall₂ (fun s s' => s'.name = s.name ∧ s'.charge = s.charge ∧ s'.st.items.map kin =
        ((s.st.items.map kin).map (walledLeap (x 0) (L s.name) cfg.dt (qom s.name) (fun y => F (locate y)))).filter
            (fun k => decide (x 0 ≤ k.1 0 ∧ k.1 0 ≤ x N)) ++ (weighty cfg.A.weight (mk s.name)).map kin)
        (active cfg.A.weight l) (active cfg.A.weight m) := by
    intro F l m mk h
    refine active_forall₂ h (fun _ _ k => k.2.1) ?_
    rintro s s' hs ⟨e1, e2, -, -, e5⟩
    refine ⟨e1, e2, ?_⟩
    dsimp only
    rw [hk, hk, hk, e5, if_neg hs, List.filter_append]
    congr 1
    rw [List.filter_comm]
    congr 1
    rw [List.filter_map, List.filter_map]
    congr 1
    rw [List.filter_map]
    congr 1
    refine List.filter_congr fun q _ => ?_
    simp only [Function.comp, kin]
    congr 1
    unfold walledLeap folded mirrored leap
    dsimp only
    split <;> [split; skip] <;> rfl
  have a := act (mk := fun name => i.made cfg sl name) hp
  have b := act (mk := fun name => i'.made cfg' sl' name) hp'
  have hloc : ∀ s ∈ active cfg.A.weight i.pops, ∀ k ∈ s.st.items.map kin, F' (locate (k.1 0)) = F (locate (k.1 0)) := by
    intro s hs k hk
    obtain ⟨q, hq, rfl⟩ := List.mem_map.1 hk
    obtain ⟨-, p, hp, -, hqp⟩ := active_names hs
    exact hFF _ (hi p hp q (hqp q hq)).1
  clear hF hF' hFF hi hp hp' act hk
  unfold SameActive at hs ⊢
  generalize active cfg.A.weight i.pops = l at a hs hloc hm
  generalize active cfg.A.weight i'.pops = l' at b hs
  generalize active cfg.A.weight j.pops = m at a
  generalize active cfg.A.weight j'.pops = m' at b
  induction hs generalizing m m' with
  | nil => cases a; cases b; exact .nil
  | @cons s s' l l' hss _ ih =>
    cases a with
    | cons a1 a2 =>
    cases b with
    | cons b1 b2 =>
    refine .cons ?_ (ih (fun t ht => hloc t (by simp [ht])) (fun t ht => hm t (by simp [ht])) _ a2 _ b2)
    obtain ⟨e1, e2, e5⟩ := hss
    obtain ⟨c1, c2, c5⟩ := a1
    obtain ⟨d1, d2, d5⟩ := b1
    refine ⟨by rw [d1, c1, e1], by rw [d2, c2, e2], ?_⟩
    rw [c5, d5, e1]
    refine List.Perm.append ?_ (hm s (by simp))
    have hmap : ((s.st.items.map kin).map (walledLeap (x 0) (L s.name) cfg.dt (qom s.name) (fun y => F (locate y)))) =
        ((s.st.items.map kin).map (walledLeap (x 0) (L s.name) cfg.dt (qom s.name) (fun y => F' (locate y)))) := by
      refine List.map_congr_left fun k hk => ?_
      unfold walledLeap
      dsimp only
      rw [hloc s (by simp) k hk]
    rw [hmap]
    exact (e5.map _).filter _

theorem made_created {α σ φ : Type} {cfg : Cfg K V α σ φ} {sl D : Nat} {onMesh : α → Bool} {i j : Ideal K V α σ}
    (h : i.step cfg sl D onMesh = .ok j) :
    ∃ side, ∀ name, i.made cfg sl name = created name (i.count + 1) (i.time + cfg.dt) cfg.sources side := by
  unfold Ideal.step at h
  unfold Ideal.made
  dsimp only at h
  split at h
  · cases h
  · rename_i ps s' e
    exact ⟨s', fun name => rfl⟩

/-- C115.  Two simulations whose charged species have the same particles with weight, in the beginning and from the
sources, have the same ones after each step, whatever neutral species and particles without weight they have. -/
theorem C115_run (he : 0 < eps) (hg : Grid co x N) {L : String → Bool} {qom : String → K} {locate : K → Nat} {σ φ : Type}
    {cfg cfg' : Cfg K V (Part K 1 ρ) σ φ} {sl sl' : Nat}
    (hdt : cfg'.dt = cfg.dt) (hw : cfg'.A.weight = cfg.A.weight) (hfac : cfg'.factor = cfg.factor)
    (hwt : ∀ q q', q.rest = q'.rest → cfg.A.weight q = cfg.A.weight q')
    {D D' : Nat} {onMesh onMesh' : Part K 1 ρ → Bool} {init init' : Option (List (String × List (Part K 1 ρ)))} {b b' : List K} {n : Nat}
    {i i' : Ideal K V (Part K 1 ρ) σ} {i0 i0' : Ideal K V (Part K 1 ρ) σ} {is is' : List (Ideal K V (Part K 1 ρ) σ)}
    (hr : Ideal.run cfg sl D onMesh init b n i = .ok (i0, is)) (hr' : Ideal.run cfg' sl' D' onMesh' init' b' n i' = .ok (i0', is'))
    (hf : (i0 :: is).IsChain (FieldStep eps co x N v0 vN L qom locate cfg sl))
    (hf' : (i0' :: is').IsChain (FieldStep eps co x N v0 vN L qom locate cfg' sl'))
    (hpl : ∀ j ∈ i0 :: is, Placed x N locate j)
    (hn : (i.pops.map (·.name)).Nodup) (hn' : (i'.pops.map (·.name)).Nodup) (hc : i'.count = i.count) (ht : i'.time = i.time)
    (hp : SameActive cfg.A.weight i.pops i'.pops)
    (hg0 : ∀ s ∈ active cfg.A.weight i.pops, ((weighty cfg.A.weight (given init' s.name)).map kin).Perm
      ((weighty cfg.A.weight (given init s.name)).map kin))
    (hcr : ∀ s ∈ active cfg.A.weight i.pops, ∀ count time side side',
      ((weighty cfg.A.weight (created s.name count time cfg'.sources side')).map kin).Perm
      ((weighty cfg.A.weight (created s.name count time cfg.sources side)).map kin)) :
    List.Forall₂ (fun j j' => j'.count = j.count ∧ j'.time = j.time ∧ SameActive cfg.A.weight j.pops j'.pops) (i0 :: is) (i0' :: is') := by
  have split : ∀ {c : Cfg K V (Part K 1 ρ) σ φ} {sl D : Nat} {on : Part K 1 ρ → Bool} {init : Option (List (String × List (Part K 1 ρ)))}
      {b : List K} {i i0 : Ideal K V (Part K 1 ρ) σ} {is : List (Ideal K V (Part K 1 ρ) σ)},
      Ideal.run c sl D on init b n i = .ok (i0, is) → i.start c sl D on init b = .ok i0 ∧ Ideal.steps c sl D on n i0 = .ok is := by
    intro c sl D on init b i i0 is hr
    unfold Ideal.run at hr
    split at hr
    · cases hr
    · rename_i h1
      split at hr
      · cases hr
      · rename_i h2
        cases hr
        exact ⟨h1, h2⟩
  obtain ⟨s1, s2⟩ := split hr
  obtain ⟨s1', s2'⟩ := split hr'
  obtain ⟨a1, a2, a3⟩ := start_all hn s1
  obtain ⟨a1', a2', a3'⟩ := start_all hn' s1'
  have st : ∀ {init : Option (List (String × List (Part K 1 ρ)))} {l m : List (Pop K V (Part K 1 ρ))},
      List.Forall₂ (fun p p' => p'.name = p.name ∧ p'.charge = p.charge ∧ p'.mass = p.mass ∧ p'.index = p.index ∧
        p'.st.items = p.st.items ++ given init p.name) l m →
      List.Forall₂ (fun s s' => s'.name = s.name ∧ s'.charge = s.charge ∧ s'.st.items.map kin =
        s.st.items.map kin ++ (weighty cfg.A.weight (given init s.name)).map kin) (active cfg.A.weight l) (active cfg.A.weight m) := by
    intro init l m h
    refine active_forall₂ h (fun _ _ k => k.2.1) ?_
    rintro s s' - ⟨e1, e2, -, -, e5⟩
    refine ⟨e1, e2, ?_⟩
    dsimp only
    rw [e5, weighty_append, List.map_append]
  have b3 := st a3
  have b3' := st a3'
  have hnames : (active cfg.A.weight i0.pops).map (·.name) = (active cfg.A.weight i.pops).map (·.name) :=
    forall₂_names b3 (fun _ _ k => k.1)
  have h0 : SameActive cfg.A.weight i0.pops i0'.pops := by
    clear split hr hr' hf hf' hpl s1 s1' s2 s2' a1 a2 a1' a2' hn hn' hcr hnames st
    unfold SameActive at hp ⊢
    generalize active cfg.A.weight i.pops = l at hp b3 hg0
    generalize active cfg.A.weight i'.pops = l' at hp b3'
    generalize active cfg.A.weight i0.pops = m at b3
    generalize active cfg.A.weight i0'.pops = m' at b3'
    induction hp generalizing m m' with
    | nil => cases b3; cases b3'; exact .nil
    | @cons s s' l l' hss _ ih =>
      cases b3 with
      | cons b1 b2 =>
      cases b3' with
      | cons c1 c2 =>
      refine .cons ?_ (ih (fun t ht => hg0 t (by simp [ht])) _ b2 _ c2)
      obtain ⟨e1, e2, e5⟩ := hss
      obtain ⟨f1, f2, f5⟩ := b1
      obtain ⟨g1, g2, g5⟩ := c1
      refine ⟨by rw [g1, f1, e1], by rw [g2, f2, e2], ?_⟩
      rw [f5, g5, e1]
      exact e5.append (hg0 s (by simp))
  have hc0 : i0'.count = i0.count := by rw [a1, a1', hc]
  have ht0 : i0'.time = i0.time := by rw [a2, a2', ht]
  have hcr : ∀ name ∈ (active cfg.A.weight i0.pops).map (·.name), ∀ count time side side',
      ((weighty cfg.A.weight (created name count time cfg'.sources side')).map kin).Perm
      ((weighty cfg.A.weight (created name count time cfg.sources side)).map kin) := by
    rw [hnames]
    intro name hname
    obtain ⟨s, hs, rfl⟩ := List.mem_map.1 hname
    exact hcr s hs
  obtain ⟨l1, ch⟩ := steps_ok_chain n s2
  obtain ⟨l2, ch'⟩ := steps_ok_chain n s2'
  clear split hr hr' s1 s1' s2 s2' a1 a2 a3 a1' a2' a3' hn hn' hp hg0 hc ht st b3 b3' hnames
  induction n generalizing i0 i0' is is' with
  | zero =>
    rw [List.length_eq_zero_iff.1 l1, List.length_eq_zero_iff.1 l2]
    exact .cons ⟨hc0, ht0, h0⟩ .nil
  | succ n ih =>
    obtain ⟨j, js, rfl⟩ := List.exists_cons_of_length_eq_add_one l1
    obtain ⟨j', js', rfl⟩ := List.exists_cons_of_length_eq_add_one l2
    rw [List.isChain_cons_cons] at hf hf' ch ch'
    have hnext : (active cfg.A.weight j.pops).map (·.name) = (active cfg.A.weight i0.pops).map (·.name) := by
      obtain ⟨-, -, F, -, hp⟩ := hf.1
      have := active_forall₂ (weight := cfg.A.weight) (R' := fun s s' => s'.name = s.name) hp (fun _ _ k => k.2.1) (fun _ _ _ k => k.1)
      exact forall₂_names this (fun _ _ k => k)
    refine .cons ⟨hc0, ht0, h0⟩ (ih hf.2 hf'.2 (fun k hk => hpl k (by simp [List.mem_cons.1 hk])) ?_ ?_ ?_ (hnext ▸ hcr) (by simpa using l1) ch.2 (by simpa using l2) ch'.2)
    · refine C115_step he hg hdt hw hfac hwt hf.1 hf'.1 (hpl _ (by simp)) h0 fun s hs => ?_
      obtain ⟨sd, e⟩ := made_created ch.1
      obtain ⟨sd', e'⟩ := made_created ch'.1
      rw [e, e', hc0, ht0, hdt]
      exact hcr _ (List.mem_map_of_mem hs) _ _ _ _
    · rw [hf.1.1, hf'.1.1, hc0]
    · rw [hf.1.2.1, hf'.1.2.1, ht0, hdt]

end

/-! ### Electrons and test electrons between two grounded plates -/

section Demo

/-- The simulation of C111 with weights. -/
def testCfg : Cfg ℚ ℚ SimPart (Unit × Vec ℚ 1) (List ℚ) := { sheetCfg with A := ⟨fun q => q.cell.toNat, fun q => (q.rest : ℚ) / 7⟩ }

abbrev testRun (xs : List SimPart) (n : Nat) :
    Except Fault (Ideal ℚ ℚ SimPart (Unit × Vec ℚ 1) × List (Ideal ℚ ℚ SimPart (Unit × Vec ℚ 1))) :=
  Ideal.run testCfg 2 4 (inLine sheetX 3) (some [("e", xs)]) [0, 0, 0, 0] n simIdeal

theorem test_electro : Spec.Electro testCfg sheetX 3 sheetMarks sheetSolver (fun k => k) 3 :=
  ⟨rfl, rfl, rfl, sheet_solves, rfl, rfl, ⟨fun _ _ => rfl, fun _ _ _ _ h => h, fun _ h => h⟩⟩

theorem test_chain (xs : List SimPart) (hxs : ∀ q ∈ xs, Present (le_refl 1) (lineMesh sheetX 3 (fun F => if F = 0 then 1 else if F = 3 then 2 else 0)) q)
    (n : Nat) {i0 : Ideal ℚ ℚ SimPart (Unit × Vec ℚ 1)} {is : List (Ideal ℚ ℚ SimPart (Unit × Vec ℚ 1))}
    (hr : testRun xs n = .ok (i0, is)) :
    (i0 :: is).IsChain (FieldStep 1 .cartesian sheetX 3 (.num 0) 0 (fun _ => true) (fun _ => -1) sheetLocate testCfg 2) ∧
    (∀ j ∈ i0 :: is, Placed sheetX 3 sheetLocate j) ∧
    ∃ st', run testCfg (some [("e", xs)]) n (simState n) = .ok st' := by
  obtain ⟨h1, h2, h3, st', h4, -⟩ := C111_run (L := fun _ => true) (va := 0) (vb := 0) (eps := 1) (cfg := testCfg) demoLine_conforming
    (fun _ => wallBC_wall) (fun _ => wallBC_keepsCell) sheet_locates rfl (fun s hs => by cases hs) test_electro
    (by obtain ⟨h1, h2, h3, h4, h5⟩ := sim_good []; exact ⟨h1, h2, h3, h4, h5⟩) n
    (by
      intro gs hgs a ha q hq
      cases hgs
      simp only [List.mem_singleton] at ha
      subst ha
      exact hxs q hq) (sim_fresh n) (by decide) (fun h => by cases h) one_pos sheet_grid sheet_marks sheet_given (create_eq sheet_given) hr
  exact ⟨h2, h3, st', h4⟩

/-- An electron without weight. -/
def testElectron : SimPart := { demoPart (3 / 2) 1 1 false with rest := 0 }

/-- C115 applies: the test electron does not disturb the three electrons of C112. -/
example (n : Nat) {i0 i0' : Ideal ℚ ℚ SimPart (Unit × Vec ℚ 1)} {is is' : List (Ideal ℚ ℚ SimPart (Unit × Vec ℚ 1))}
    (hr : testRun trio n = .ok (i0, is)) (hr' : testRun (testElectron :: trio) n = .ok (i0', is')) :
    List.Forall₂ (fun j j' => j'.count = j.count ∧ j'.time = j.time ∧ SameActive testCfg.A.weight j.pops j'.pops) (i0 :: is) (i0' :: is') := by
  have hpres : ∀ q ∈ testElectron :: trio, Present (le_refl 1) (lineMesh sheetX 3 (fun F => if F = 0 then 1 else if F = 3 then 2 else 0)) q := by
    intro q hq
    rcases List.mem_cons.1 hq with rfl | hq
    · exact ⟨by unfold InItsCell; decide +kernel, rfl⟩
    · exact trio_present (.refl _) q hq
  obtain ⟨h2, h3, -⟩ := test_chain trio (trio_present (.refl _)) n hr
  obtain ⟨h2', -, -⟩ := test_chain _ hpres n hr'
  refine C115_run one_pos sheet_grid rfl rfl rfl (fun q q' h => by show (q.rest : ℚ) / 7 = q'.rest / 7; rw [h]) hr hr' h2 h2' h3
    (by decide) (by decide) rfl rfl ?_ ?_ (fun s _ _ _ _ _ => .refl _)
  · exact List.forall₂_same.2 fun _ _ => ⟨rfl, rfl, .refl _⟩
  · intro s hs
    have : s.name = "e" := by
      obtain ⟨-, p, hp, e, -⟩ := active_names hs
      simp only [simIdeal, List.mem_singleton] at hp
      rw [← e, hp]
    rw [this]
    have h1 : given (some [("e", testElectron :: trio)]) "e" = testElectron :: trio := rfl
    have h2 : given (some [("e", trio)]) "e" = trio := rfl
    rw [h1, h2]
    have : weighty testCfg.A.weight (testElectron :: trio) = weighty testCfg.A.weight trio :=
      List.filter_cons_of_neg (by decide +kernel)
    rw [this]
example : (testRun trio 3).toOption.isSome = true ∧ (testRun (testElectron :: trio) 3).toOption.isSome = true := by decide +kernel

end Demo

end Dt
