import Verif.Spec.Acting
import Verif.Props.CppPermute

/-!
# Neutral species and particles without weight act on nothing, on any mesh, in Python and in compiled code (C128)
-/

set_option linter.unusedSectionVars false

namespace Dt
open Spec Poisson Dt.Topology TimeLoop
variable {K V α σ φ : Type} [Field K] [LinearOrder K] [IsStrictOrderedRing K]

/-- What a step does to the particles, whichever program makes it. -/
def Acted (cfg : Cfg K V α σ φ) (f : String → α → Option (α × Bool)) (D : Nat) (side : σ) (i j : Ideal K V α σ) : Prop :=
  j.count = i.count + 1 ∧ j.time = i.time + cfg.dt ∧ j.phi = potential cfg D j.pops ∧
  List.Forall₂ (fun s s' => s'.name = s.name ∧ s'.charge = s.charge ∧
    s'.st.items = (if s.charge = 0 then s.st.items else s.st.items.filterMap (surviving (f s.name))) ++
      created s.name (i.count + 1) (i.time + cfg.dt) cfg.sources side) i.pops j.pops

section
variable {cfg cfg' : Cfg K V α σ φ} {sl sl' D : Nat} {onMesh onMesh' : α → Bool}

theorem movePop_acts {mv : String → Adv σ α} {f : String → α → Option (α × Bool)}
    (hf : ∀ sn st i o b q, (mv sn st i o b q).toOption.map (·.2) = f sn q) {p : Pop K V α} {side : σ} {r : Pop K V α × σ}
    (hr : Spec.movePop sl mv p side = .ok r) : r.1.name = p.name ∧ r.1.charge = p.charge ∧
      r.1.st.items = if p.charge = 0 then p.st.items else p.st.items.filterMap (surviving (f p.name)) := by
  unfold Spec.movePop at hr
  split at hr
  · rename_i h
    cases hr
    refine ⟨rfl, rfl, ?_⟩
    split
    · rfl
    · rw [h.resolve_left ‹_›]; rfl
  · rename_i h
    split at hr
    · cases hr
    · cases hr
    · rename_i side' y ys e
      cases hr
      refine ⟨rfl, rfl, ?_⟩
      rw [if_neg (fun h0 => h (Or.inl h0))]
      exact ((pass_oblivious (hf p.name) _ _ _ _).1 _ e).2

theorem comp_movePop_acts {mv : String → Adv σ α} {f : String → α → Option (α × Bool)}
    (hf : ∀ sn st i o b q, (mv sn st i o b q).toOption.map (·.2) = f sn q) {p : Pop K V α} {side : σ} {r : Pop K V α × σ}
    (hr : Comp.movePop sl mv p side = .ok r) : r.1.name = p.name ∧ r.1.charge = p.charge ∧
      r.1.st.items = if p.charge = 0 then p.st.items else p.st.items.filterMap (surviving (f p.name)) := by
  unfold Comp.movePop at hr
  split at hr
  · rename_i h
    cases hr
    refine ⟨rfl, rfl, ?_⟩
    split
    · rfl
    · rw [h.resolve_left ‹_›]; rfl
  · rename_i h
    split at hr
    · cases hr
    · split at hr
      · cases hr
      · rename_i side' ys e
        cases hr
        refine ⟨rfl, rfl, ?_⟩
        rw [if_neg (fun h0 => h (Or.inl h0))]
        exact ((pass_oblivious (hf p.name) _ _ _ _).1 _ e).2

theorem moveAll_acts {mv : String → Adv σ α} {f : String → α → Option (α × Bool)}
    (hf : ∀ sn st i o b q, (mv sn st i o b q).toOption.map (·.2) = f sn q) {l : List (Pop K V α)} {side : σ}
    {r : List (Pop K V α) × σ} (hr : Spec.moveAll sl mv l side = .ok r) :
    List.Forall₂ (fun s s' => s'.name = s.name ∧ s'.charge = s.charge ∧
      s'.st.items = if s.charge = 0 then s.st.items else s.st.items.filterMap (surviving (f s.name))) l r.1 := by
  induction l generalizing side r with
  | nil => cases hr; exact .nil
  | cons p l ih =>
    simp only [Spec.moveAll] at hr
    split at hr
    · cases hr
    · rename_i e1
      split at hr
      · cases hr
      · rename_i e2
        cases hr
        exact .cons (movePop_acts hf e1) (ih e2)

theorem comp_moveAll_acts {mv : String → Adv σ α} {f : String → α → Option (α × Bool)}
    (hf : ∀ sn st i o b q, (mv sn st i o b q).toOption.map (·.2) = f sn q) {l : List (Pop K V α)} {side : σ}
    {r : List (Pop K V α) × σ} (hr : Comp.moveAll sl mv l side = .ok r) :
    List.Forall₂ (fun s s' => s'.name = s.name ∧ s'.charge = s.charge ∧
      s'.st.items = if s.charge = 0 then s.st.items else s.st.items.filterMap (surviving (f s.name))) l r.1 := by
  induction l generalizing side r with
  | nil => cases hr; exact .nil
  | cons p l ih =>
    simp only [Comp.moveAll] at hr
    split at hr
    · cases hr
    · rename_i e1
      split at hr
      · cases hr
      · rename_i e2
        cases hr
        exact .cons (comp_movePop_acts hf e1) (ih e2)

theorem looked_settled {l : List (Pop K V α)} : potential cfg D (l.map looked) = potential cfg D l := by
  unfold potential
  congr 2
  refine List.map_congr_left fun j _ => ?_
  congr 1
  unfold chargeAt
  rw [List.map_map]
  rfl

theorem acted_of {f : String → α → Option (α × Bool)} {i : Ideal K V α σ} {ps ps1 : List (Pop K V α)} {side side1 : σ}
    (h1 : List.Forall₂ (fun s s' => s'.name = s.name ∧ s'.charge = s.charge ∧
      s'.st.items = if s.charge = 0 then s.st.items else s.st.items.filterMap (surviving (f s.name))) i.pops ps)
    (h2 : List.Forall₂ (fun p p' => p'.name = p.name ∧ p'.charge = p.charge ∧ p'.mass = p.mass ∧
      p'.index = p.index ∧ p'.st.items = p.st.items ++ created p.name (i.count + 1) (i.time + cfg.dt) cfg.sources side) ps ps1) :
    Acted cfg f D side i ⟨i.count + 1, i.time + cfg.dt, ps1.map looked, side1, potential cfg D ps1⟩ := by
  refine ⟨rfl, rfl, looked_settled.symm, ?_⟩
  rw [List.forall₂_map_right_iff]
  refine forall₂_trans' (fun a b c h k => ?_) h1 h2
  obtain ⟨e1, e2, e3⟩ := h
  obtain ⟨f1, f2, -, -, f3⟩ := k
  exact ⟨by rw [← e1, ← f1]; rfl, by rw [← e2, ← f2]; rfl, by show c.st.items = _; rw [f3, e3, e1]⟩

theorem step_acted {f : String → α → Option (α × Bool)} {i j : Ideal K V α σ}
    (hf : ∀ sn st i' o b q, (cfg.move sn (cfg.fieldOf i.phi) (i.count + 1) (i.time + cfg.dt) st i' o b q).toOption.map (·.2) = f sn q)
    (hn : (i.pops.map (·.name)).Nodup) (h : i.step cfg sl D onMesh = .ok j) : ∃ side, Acted cfg f D side i j := by
  unfold Ideal.step at h
  dsimp only at h
  split at h
  · cases h
  · rename_i ps side hmo
    have a := moveAll_acts hf hmo
    split at h
    · cases h
    · rename_i ps1 side1 hcr
      have b := createAll_at (by rw [forall₂_names a (fun _ _ k => k.1)]; exact hn) hcr
      unfold settle at h
      split at h
      · cases h
        exact ⟨side, acted_of a b⟩
      · cases h

theorem comp_step_acted {f : String → α → Option (α × Bool)} {i j : Ideal K V α σ}
    (hf : ∀ sn st i' o b q, (cfg.move sn (cfg.fieldOf i.phi) (i.count + 1) (i.time + cfg.dt) st i' o b q).toOption.map (·.2) = f sn q)
    (hn : (i.pops.map (·.name)).Nodup) (h : Comp.step cfg sl D onMesh i = .ok j) : ∃ side, Acted cfg f D side i j := by
  unfold Comp.step at h
  dsimp only at h
  split at h
  · cases h
  · rename_i ps side hmo
    have a := comp_moveAll_acts hf hmo
    split at h
    · cases h
    · rename_i ps1 side1 hcr
      have b := CppPlasma.createAll_at (by rw [forall₂_names a (fun _ _ k => k.1)]; exact hn) hcr
      unfold Comp.settle at h
      split at h
      · cases h
        exact ⟨side, acted_of a b⟩
      · cases h

/-- The charge of a DOF is the charge of the actors. -/
theorem charge_actors (l : List (Pop K V α)) (j : Nat) :
    chargeAt cfg l j = ((actors cfg.A.weight l).map (fun a => a.2.1 * (a.2.2.map (contrib cfg.A cfg.SD j)).sum)).sum := by
  have hw : ∀ xs : List α, ((heavy cfg.A.weight xs).map (contrib cfg.A cfg.SD j)).sum = (xs.map (contrib cfg.A cfg.SD j)).sum := by
    intro xs
    unfold heavy
    induction xs with
    | nil => rfl
    | cons q xs ih =>
      by_cases hq : cfg.A.weight q = 0
      · rw [List.filter_cons_of_neg (by simpa using hq), ih, List.map_cons, List.sum_cons]
        unfold contrib
        rw [hq, zero_mul, zero_add]
      · rw [List.filter_cons_of_pos (by simpa using hq), List.map_cons, List.map_cons, List.sum_cons, List.sum_cons, ih]
  unfold chargeAt actors
  induction l with
  | nil => rfl
  | cons s l ih =>
    rw [List.map_cons, List.sum_cons, ih]
    by_cases hs : s.charge = 0
    · rw [List.filter_cons_of_neg (by simpa using hs), hs, zero_mul, zero_add]
    · rw [List.filter_cons_of_pos (by simpa using hs), List.map_cons, List.map_cons, List.sum_cons]
      dsimp only
      rw [hw]

theorem actors_potential (hp : SameLaws cfg cfg') {l l' : List (Pop K V α)}
    (h : SameActors (actors cfg.A.weight l) (actors cfg.A.weight l')) : potential cfg' D l' = potential cfg D l := by
  unfold potential
  rw [hp.solve, hp.bc, hp.factor]
  congr 2
  refine List.map_congr_left fun j _ => ?_
  congr 1
  rw [charge_actors, charge_actors, hp.A, hp.SD]
  unfold SameActors at h
  generalize actors cfg.A.weight l = m at h
  generalize actors cfg.A.weight l' = m' at h
  induction h with
  | nil => rfl
  | cons hs _ ih => rw [List.map_cons, List.map_cons, List.sum_cons, List.sum_cons, ih, hs.2.1, (hs.2.2.map _).sum_eq]

theorem heavy_append (weight : α → K) (xs ys : List α) : heavy weight (xs ++ ys) = heavy weight xs ++ heavy weight ys :=
  List.filter_append _ _

theorem heavy_filterMap {weight : α → K} {f : α → Option (α × Bool)} (hf : ∀ q q' k, f q = some (q', k) → (weight q' = 0 ↔ weight q = 0))
    (xs : List α) : heavy weight (xs.filterMap (surviving f)) = (heavy weight xs).filterMap (surviving f) := by
  induction xs with
  | nil => rfl
  | cons q xs ih =>
    unfold heavy at ih ⊢
    rw [List.filterMap_cons]
    have hc : surviving f q = none ∨ ∃ y, surviving f q = some y ∧ (weight y = 0 ↔ weight q = 0) := by
      cases e : f q with
      | none => exact Or.inl (by simp [surviving, e])
      | some r =>
        obtain ⟨y, k⟩ := r
        cases k with
        | false => exact Or.inl (by simp [surviving, e])
        | true => exact Or.inr ⟨y, by simp [surviving, e], hf _ _ _ e⟩
    rcases hc with hc | ⟨y, hc, hw⟩
    · rw [hc]
      dsimp only
      rw [ih]
      by_cases hq : weight q = 0
      · rw [List.filter_cons_of_neg (by simpa using hq)]
      · rw [List.filter_cons_of_pos (by simpa using hq), List.filterMap_cons, hc]
    · rw [hc]
      dsimp only
      by_cases hq : weight q = 0
      · rw [List.filter_cons_of_neg (by simpa using hw.2 hq), List.filter_cons_of_neg (by simpa using hq), ih]
      · rw [List.filter_cons_of_pos (by simpa using fun h => hq (hw.1 h)), List.filter_cons_of_pos (by simpa using hq),
          List.filterMap_cons, hc, ih]

/-- Related species have related actors. -/
theorem actors_forall₂ {weight : α → K} {R : Pop K V α → Pop K V α → Prop} {R' : String × K × List α → String × K × List α → Prop}
    {l m : List (Pop K V α)} (h : List.Forall₂ R l m) (hc : ∀ s s', R s s' → s'.charge = s.charge)
    (hR : ∀ s s', s.charge ≠ 0 → R s s' → R' (s.name, s.charge, heavy weight s.st.items) (s'.name, s'.charge, heavy weight s'.st.items)) :
    List.Forall₂ R' (actors weight l) (actors weight m) := by
  unfold actors
  induction h with
  | nil => exact .nil
  | @cons s s' l m h1 _ ih =>
    by_cases hs : s.charge = 0
    · rw [List.filter_cons_of_neg (by simpa using hs), List.filter_cons_of_neg (by simpa [hc _ _ h1] using hs)]
      exact ih
    · rw [List.filter_cons_of_pos (by simpa using hs), List.filter_cons_of_pos (by simpa [hc _ _ h1] using hs)]
      exact .cons (hR _ _ hs h1) ih

/-- The heavy particles that the sources of two simulations create for the species of the list are the same, up to their order. -/
def Spec.SameMade (weight : α → K) (names : List String) (cfg cfg' : Cfg K V α σ φ) : Prop :=
  ∀ name ∈ names, ∀ count time side side', (heavy weight (created name count time cfg'.sources side')).Perm
    (heavy weight (created name count time cfg.sources side))

theorem acted_names {weight : α → K} {f : String → α → Option (α × Bool)} {side : σ} {i j : Ideal K V α σ} (h : Acted cfg f D side i j) :
    (actors weight j.pops).map (·.1) = (actors weight i.pops).map (·.1) := by
  have := actors_forall₂ (weight := weight) (R' := fun a a' => a'.1 = a.1) h.2.2.2 (fun _ _ k => k.2.1) (fun _ _ _ k => k.1)
  clear h
  generalize actors weight i.pops = l at this
  generalize actors weight j.pops = m at this
  induction this with
  | nil => rfl
  | cons h _ ih => rw [List.map_cons, List.map_cons, ih, h]

theorem acted_alike (hp : SameLaws cfg cfg') {f : String → α → Option (α × Bool)}
    (hf : ∀ sn q q' k, f sn q = some (q', k) → (cfg.A.weight q' = 0 ↔ cfg.A.weight q = 0)) {side side' : σ} {i i' j j' : Ideal K V α σ}
    (hi : ActAlike cfg.A.weight i i') (hm : SameMade cfg.A.weight ((actors cfg.A.weight i.pops).map (·.1)) cfg cfg')
    (h : Acted cfg f D side i j) (h' : Acted cfg' f D side' i' j') : ActAlike cfg.A.weight j j' := by
  obtain ⟨e1, e2, e3, e4⟩ := hi
  obtain ⟨a1, a2, a3, a4⟩ := h
  obtain ⟨b1, b2, b3, b4⟩ := h'
  rw [e1] at b1
  rw [e2, hp.dt] at b2
  rw [e1, e2, hp.dt] at b4
  have act : ∀ {cf : Cfg K V α σ φ} {sd : σ} {l m : List (Pop K V α)},
      List.Forall₂ (fun s s' => s'.name = s.name ∧ s'.charge = s.charge ∧
        s'.st.items = (if s.charge = 0 then s.st.items else s.st.items.filterMap (surviving (f s.name))) ++
          created s.name (i.count + 1) (i.time + cfg.dt) cf.sources sd) l m →
      List.Forall₂ (fun a a' => a'.1 = a.1 ∧ a'.2.1 = a.2.1 ∧ a'.2.2 = a.2.2.filterMap (surviving (f a.1)) ++
        heavy cfg.A.weight (created a.1 (i.count + 1) (i.time + cfg.dt) cf.sources sd)) (actors cfg.A.weight l) (actors cfg.A.weight m) := by
    intro cf sd l m h
    refine actors_forall₂ h (fun _ _ k => k.2.1) ?_
    rintro s s' hs ⟨c1, c2, c3⟩
    refine ⟨c1, c2, ?_⟩
    dsimp only
    rw [c3, if_neg hs, heavy_append, heavy_filterMap (hf s.name)]
  have a := act a4
  have b := act b4
  have key : SameActors (actors cfg.A.weight j.pops) (actors cfg.A.weight j'.pops) := by
    clear act a3 a4 b3 b4
    unfold SameActors at e4 ⊢
    generalize actors cfg.A.weight i.pops = l at a e4 hm
    generalize actors cfg.A.weight i'.pops = l' at b e4
    generalize actors cfg.A.weight j.pops = m at a
    generalize actors cfg.A.weight j'.pops = m' at b
    induction e4 generalizing m m' with
    | nil => cases a; cases b; exact .nil
    | @cons s s' l l' hss _ ih =>
      cases a with
      | cons c1 c2 =>
      cases b with
      | cons d1 d2 =>
      refine .cons ?_ (ih (fun n hn => hm n (by simp [hn])) _ c2 _ d2)
      obtain ⟨g1, g2, g3⟩ := hss
      obtain ⟨k1, k2, k3⟩ := c1
      obtain ⟨l1, l2, l3⟩ := d1
      refine ⟨by rw [l1, k1, g1], by rw [l2, k2, g2], ?_⟩
      rw [k3, l3, g1]
      exact (g3.filterMap _).append (hm _ (by simp) _ _ _ _)
  exact ⟨by rw [a1, b1], by rw [a2, b2], by rw [a3, b3]; exact actors_potential hp key, key⟩

theorem keeps_fate {adv : Adv σ α} {weight : α → K} {f : α → Option (α × Bool)} [Nonempty σ] (hf : ∀ st i o b q, (adv st i o b q).toOption.map (·.2) = f q)
    (hw : KeepsWeight weight adv) (q q' : α) (k : Bool) (h : f q = some (q', k)) : weight q' = 0 ↔ weight q = 0 := by
  obtain ⟨st⟩ := ‹Nonempty σ›
  have := hf st 0 0 false q
  rw [h] at this
  cases e : adv st 0 0 false q with
  | error a => rw [e] at this; cases this
  | ok r =>
    rw [e] at this
    have : r.2 = (q', k) := by simpa [Except.toOption] using this
    exact hw st 0 0 false q r.1 q' k (by rw [e, ← this])

/-- C128.  One step of the Python loop: the same actors and the same potential before it, the same after it. -/
theorem C128_step (hp : SameLaws cfg cfg') (hmv : ∀ sn f count time, Oblivious (cfg.move sn f count time))
    (hw : ∀ sn f count time, KeepsWeight cfg.A.weight (cfg.move sn f count time)) {i i' j j' : Ideal K V α σ}
    (hn : (i.pops.map (·.name)).Nodup) (hn' : (i'.pops.map (·.name)).Nodup) (hi : ActAlike cfg.A.weight i i')
    (hm : SameMade cfg.A.weight ((actors cfg.A.weight i.pops).map (·.1)) cfg cfg')
    (h : i.step cfg sl D onMesh = .ok j) (h' : i'.step cfg' sl' D onMesh' = .ok j') : ActAlike cfg.A.weight j j' := by
  choose f hf using fun sn => hmv sn (cfg.fieldOf i.phi) (i.count + 1) (i.time + cfg.dt)
  obtain ⟨side, a⟩ := step_acted hf hn h
  obtain ⟨side', a'⟩ := step_acted (f := f) (by rw [hp.move, hp.fieldOf, hp.dt, hi.1, hi.2.1, hi.2.2.1]; exact hf) hn' h'
  have : Nonempty σ := ⟨side⟩
  exact acted_alike hp (fun sn => keeps_fate (hf sn) (hw sn _ _ _)) hi hm a a'

/-- C128.  One step of the loop with compiled movers. -/
theorem C128_compiled_step (hp : SameLaws cfg cfg') (hmv : ∀ sn f count time, Oblivious (cfg.move sn f count time))
    (hw : ∀ sn f count time, KeepsWeight cfg.A.weight (cfg.move sn f count time)) {i i' j j' : Ideal K V α σ}
    (hn : (i.pops.map (·.name)).Nodup) (hn' : (i'.pops.map (·.name)).Nodup) (hi : ActAlike cfg.A.weight i i')
    (hm : SameMade cfg.A.weight ((actors cfg.A.weight i.pops).map (·.1)) cfg cfg')
    (h : Comp.step cfg sl D onMesh i = .ok j) (h' : Comp.step cfg' sl' D onMesh' i' = .ok j') : ActAlike cfg.A.weight j j' := by
  choose f hf using fun sn => hmv sn (cfg.fieldOf i.phi) (i.count + 1) (i.time + cfg.dt)
  obtain ⟨side, a⟩ := comp_step_acted hf hn h
  obtain ⟨side', a'⟩ := comp_step_acted (f := f) (by rw [hp.move, hp.fieldOf, hp.dt, hi.1, hi.2.1, hi.2.2.1]; exact hf) hn' h'
  have : Nonempty σ := ⟨side⟩
  exact acted_alike hp (fun sn => keeps_fate (hf sn) (hw sn _ _ _)) hi hm a a'

theorem steps_act (hp : SameLaws cfg cfg') (hmv : ∀ sn f count time, Oblivious (cfg.move sn f count time))
    (hw : ∀ sn f count time, KeepsWeight cfg.A.weight (cfg.move sn f count time)) (n : Nat) {i i' : Ideal K V α σ} {is is' : List (Ideal K V α σ)}
    (hn : (i.pops.map (·.name)).Nodup) (hn' : (i'.pops.map (·.name)).Nodup) (hi : ActAlike cfg.A.weight i i')
    {names : List String} (hnm : (actors cfg.A.weight i.pops).map (·.1) = names) (hm : SameMade cfg.A.weight names cfg cfg')
    (h : Ideal.steps cfg sl D onMesh n i = .ok is) (h' : Ideal.steps cfg' sl' D onMesh' n i' = .ok is') :
    List.Forall₂ (fun j j' => ActAlike cfg.A.weight j j' ∧ (actors cfg.A.weight j.pops).map (·.1) = names) (i :: is) (i' :: is') := by
  induction n generalizing i i' is is' with
  | zero =>
    simp only [Ideal.steps, Except.ok.injEq] at h h'
    subst h h'
    exact .cons ⟨hi, hnm⟩ .nil
  | succ n ih =>
    simp only [Ideal.steps] at h h'
    split at h
    · cases h
    · rename_i j hj
      split at h
      · cases h
      · rename_i js hjs
        cases h
        split at h'
        · cases h'
        · rename_i j' hj'
          split at h'
          · cases h'
          · rename_i js' hjs'
            cases h'
            refine .cons ⟨hi, hnm⟩ (ih (by rw [step_names hmv hn hj]; exact hn) (by rw [step_names (by rw [hp.move]; exact hmv) hn' hj']; exact hn')
              (C128_step hp hmv hw hn hn' hi (hnm ▸ hm) hj hj') ?_ hjs hjs')
            choose f hf using fun sn => hmv sn (cfg.fieldOf i.phi) (i.count + 1) (i.time + cfg.dt)
            obtain ⟨side, a⟩ := step_acted hf hn hj
            rw [acted_names a]
            exact hnm

theorem comp_steps_act (hp : SameLaws cfg cfg') (hmv : ∀ sn f count time, Oblivious (cfg.move sn f count time))
    (hw : ∀ sn f count time, KeepsWeight cfg.A.weight (cfg.move sn f count time)) (n : Nat) {i i' : Ideal K V α σ} {is is' : List (Ideal K V α σ)}
    (hn : (i.pops.map (·.name)).Nodup) (hn' : (i'.pops.map (·.name)).Nodup) (hi : ActAlike cfg.A.weight i i')
    {names : List String} (hnm : (actors cfg.A.weight i.pops).map (·.1) = names) (hm : SameMade cfg.A.weight names cfg cfg')
    (h : Comp.steps cfg sl D onMesh n i = .ok is) (h' : Comp.steps cfg' sl' D onMesh' n i' = .ok is') :
    List.Forall₂ (fun j j' => ActAlike cfg.A.weight j j' ∧ (actors cfg.A.weight j.pops).map (·.1) = names) (i :: is) (i' :: is') := by
  induction n generalizing i i' is is' with
  | zero =>
    simp only [Comp.steps, Except.ok.injEq] at h h'
    subst h h'
    exact .cons ⟨hi, hnm⟩ .nil
  | succ n ih =>
    simp only [Comp.steps] at h h'
    split at h
    · cases h
    · rename_i j hj
      split at h
      · cases h
      · rename_i js hjs
        cases h
        split at h'
        · cases h'
        · rename_i j' hj'
          split at h'
          · cases h'
          · rename_i js' hjs'
            cases h'
            refine .cons ⟨hi, hnm⟩ (ih (by rw [comp_step_names hmv hn hj]; exact hn) (by rw [comp_step_names (by rw [hp.move]; exact hmv) hn' hj']; exact hn')
              (C128_compiled_step hp hmv hw hn hn' hi (hnm ▸ hm) hj hj') ?_ hjs hjs')
            choose f hf using fun sn => hmv sn (cfg.fieldOf i.phi) (i.count + 1) (i.time + cfg.dt)
            obtain ⟨side, a⟩ := comp_step_acted hf hn hj
            rw [acted_names a]
            exact hnm

theorem start_actors {weight : α → K} {init init' : Option (List (String × List α))} {l l' m m' : List (Pop K V α)}
    (h : List.Forall₂ (fun p p' => p'.name = p.name ∧ p'.charge = p.charge ∧ p'.mass = p.mass ∧ p'.index = p.index ∧
      p'.st.items = p.st.items ++ given init p.name) l m)
    (h' : List.Forall₂ (fun p p' => p'.name = p.name ∧ p'.charge = p.charge ∧ p'.mass = p.mass ∧ p'.index = p.index ∧
      p'.st.items = p.st.items ++ given init' p.name) l' m')
    (hp : SameActors (actors weight l) (actors weight l'))
    (hg : ∀ name ∈ (actors weight l).map (·.1), (heavy weight (given init' name)).Perm (heavy weight (given init name))) :
    SameActors (actors weight m) (actors weight m') ∧ (actors weight m).map (·.1) = (actors weight l).map (·.1) := by
  have act : ∀ {init : Option (List (String × List α))} {l m : List (Pop K V α)},
      List.Forall₂ (fun p p' => p'.name = p.name ∧ p'.charge = p.charge ∧ p'.mass = p.mass ∧ p'.index = p.index ∧
        p'.st.items = p.st.items ++ given init p.name) l m →
      List.Forall₂ (fun a a' => a'.1 = a.1 ∧ a'.2.1 = a.2.1 ∧ a'.2.2 = a.2.2 ++ heavy weight (given init a.1)) (actors weight l) (actors weight m) := by
    intro init l m h
    refine actors_forall₂ h (fun _ _ k => k.2.1) ?_
    rintro s s' - ⟨c1, c2, -, -, c3⟩
    refine ⟨c1, c2, ?_⟩
    dsimp only
    rw [c3, heavy_append]
  have a := act h
  have b := act h'
  clear h h' act
  unfold SameActors at hp ⊢
  generalize actors weight l = l at a hp hg
  generalize actors weight l' = l' at b hp
  generalize actors weight m = m at a
  generalize actors weight m' = m' at b
  induction hp generalizing m m' with
  | nil => cases a; cases b; exact ⟨.nil, rfl⟩
  | @cons s s' l l' hss _ ih =>
    cases a with
    | cons c1 c2 =>
    cases b with
    | cons d1 d2 =>
    obtain ⟨i1, i2⟩ := ih (fun n hn => hg n (by simp [hn])) _ c2 _ d2
    obtain ⟨g1, g2, g3⟩ := hss
    obtain ⟨k1, k2, k3⟩ := c1
    obtain ⟨l1, l2, l3⟩ := d1
    refine ⟨.cons ⟨by rw [l1, k1, g1], by rw [l2, k2, g2], ?_⟩ i1, by rw [List.map_cons, List.map_cons, k1, i2]⟩
    rw [k3, l3, g1]
    exact g3.append (hg _ (by simp))

theorem run_acts (hp : SameLaws cfg cfg') (hmv : ∀ sn f count time, Oblivious (cfg.move sn f count time))
    (hw : ∀ sn f count time, KeepsWeight cfg.A.weight (cfg.move sn f count time)) {init init' : List (String × List α)} {b b' : List K} {n : Nat}
    {i i' i0 i0' : Ideal K V α σ} {is is' : List (Ideal K V α σ)}
    (hr : Ideal.run cfg sl D onMesh (some init) b n i = .ok (i0, is))
    (hr' : Ideal.run cfg' sl' D onMesh' (some init') b' n i' = .ok (i0', is'))
    (hn : (i.pops.map (·.name)).Nodup) (hn' : (i'.pops.map (·.name)).Nodup) (hc : i'.count = i.count) (ht : i'.time = i.time)
    (hpo : SameActors (actors cfg.A.weight i.pops) (actors cfg.A.weight i'.pops))
    (hg : ∀ name ∈ (actors cfg.A.weight i.pops).map (·.1), (heavy cfg.A.weight (given (some init') name)).Perm (heavy cfg.A.weight (given (some init) name)))
    (hm : SameMade cfg.A.weight ((actors cfg.A.weight i.pops).map (·.1)) cfg cfg') :
    List.Forall₂ (fun j j' => ActAlike cfg.A.weight j j' ∧ (actors cfg.A.weight j.pops).map (·.1) = (actors cfg.A.weight i.pops).map (·.1)) (i0 :: is) (i0' :: is') := by
  obtain ⟨s1, s2⟩ := run_split.1 hr
  obtain ⟨s1', s2'⟩ := run_split.1 hr'
  obtain ⟨a1, a2, a3⟩ := start_all hn s1
  obtain ⟨a1', a2', a3'⟩ := start_all hn' s1'
  obtain ⟨k1, k2⟩ := start_actors a3 a3' hpo hg
  refine steps_act hp hmv hw n (by rw [forall₂_names a3 (fun _ _ k => k.1)]; exact hn) (by rw [forall₂_names a3' (fun _ _ k => k.1)]; exact hn')
    ⟨by rw [a1, a1', hc], by rw [a2, a2', ht], ?_, k1⟩ k2 hm s2 s2'
  simp only [Ideal.start] at s1 s1'
  split at s1
  · cases s1
  · split at s1'
    · cases s1'
    · rw [(settle_phi s1).1, (settle_phi s1').1]
      exact actors_potential hp k1

/-- C128.  Two simulations with the Python loop with the same laws, whose charged species have the same particles with
weight, in the beginning and from the sources: after each step the same potential and the same particles with weight in
the charged species, whatever neutral species and particles without weight they have.  Any mesh, any dimension, any
solver. -/
theorem C128_run (hp : SameLaws cfg cfg') (hmv : ∀ sn f count time, Oblivious (cfg.move sn f count time))
    (hw : ∀ sn f count time, KeepsWeight cfg.A.weight (cfg.move sn f count time)) {init init' : List (String × List α)} {b b' : List K} {n : Nat}
    {i i' i0 i0' : Ideal K V α σ} {is is' : List (Ideal K V α σ)}
    (hr : Ideal.run cfg sl D onMesh (some init) b n i = .ok (i0, is))
    (hr' : Ideal.run cfg' sl' D onMesh' (some init') b' n i' = .ok (i0', is'))
    (hn : (i.pops.map (·.name)).Nodup) (hn' : (i'.pops.map (·.name)).Nodup) (hc : i'.count = i.count) (ht : i'.time = i.time)
    (hpo : SameActors (actors cfg.A.weight i.pops) (actors cfg.A.weight i'.pops))
    (hg : ∀ name ∈ (actors cfg.A.weight i.pops).map (·.1), (heavy cfg.A.weight (given (some init') name)).Perm (heavy cfg.A.weight (given (some init) name)))
    (hm : SameMade cfg.A.weight ((actors cfg.A.weight i.pops).map (·.1)) cfg cfg') :
    List.Forall₂ (ActAlike cfg.A.weight) (i0 :: is) (i0' :: is') :=
  (run_acts hp hmv hw hr hr' hn hn' hc ht hpo hg hm).imp fun _ _ k => k.1

theorem comp_run_acts (hp : SameLaws cfg cfg') (hmv : ∀ sn f count time, Oblivious (cfg.move sn f count time))
    (hw : ∀ sn f count time, KeepsWeight cfg.A.weight (cfg.move sn f count time)) {init init' : List (String × List α)} {b b' : List K} {n : Nat}
    {i i' i0 i0' : Ideal K V α σ} {is is' : List (Ideal K V α σ)}
    (hr : Comp.run cfg sl D onMesh (some init) b n i = .ok (i0, is))
    (hr' : Comp.run cfg' sl' D onMesh' (some init') b' n i' = .ok (i0', is'))
    (hn : (i.pops.map (·.name)).Nodup) (hn' : (i'.pops.map (·.name)).Nodup) (hc : i'.count = i.count) (ht : i'.time = i.time)
    (hpo : SameActors (actors cfg.A.weight i.pops) (actors cfg.A.weight i'.pops))
    (hg : ∀ name ∈ (actors cfg.A.weight i.pops).map (·.1), (heavy cfg.A.weight (given (some init') name)).Perm (heavy cfg.A.weight (given (some init) name)))
    (hm : SameMade cfg.A.weight ((actors cfg.A.weight i.pops).map (·.1)) cfg cfg') :
    List.Forall₂ (fun j j' => ActAlike cfg.A.weight j j' ∧ (actors cfg.A.weight j.pops).map (·.1) = (actors cfg.A.weight i.pops).map (·.1)) (i0 :: is) (i0' :: is') := by
  obtain ⟨s1, s2⟩ := comp_run_split.1 hr
  obtain ⟨s1', s2'⟩ := comp_run_split.1 hr'
  obtain ⟨a1, a2, a3⟩ := comp_start_all hn s1
  obtain ⟨a1', a2', a3'⟩ := comp_start_all hn' s1'
  obtain ⟨k1, k2⟩ := start_actors a3 a3' hpo hg
  refine comp_steps_act hp hmv hw n (by rw [forall₂_names a3 (fun _ _ k => k.1)]; exact hn) (by rw [forall₂_names a3' (fun _ _ k => k.1)]; exact hn')
    ⟨by rw [a1, a1', hc], by rw [a2, a2', ht], ?_, k1⟩ k2 hm s2 s2'
  have phi : ∀ {cf : Cfg K V α σ φ} {on : α → Bool} {count : Int} {time : K} {ps : List (Pop K V α)} {sd : σ} {k : Ideal K V α σ},
      Comp.settle cf D on count time ps sd = .ok k → k.phi = potential cf D k.pops := by
    intro cf on count time ps sd k h
    unfold Comp.settle at h
    split at h
    · cases h; exact looked_settled.symm
    · cases h
  simp only [Comp.start] at s1 s1'
  split at s1
  · cases s1
  · split at s1'
    · cases s1'
    · rw [phi s1, phi s1']
      exact actors_potential hp k1

/-- C128.  The same for simulations with compiled movers. -/
theorem C128_compiled (hp : SameLaws cfg cfg') (hmv : ∀ sn f count time, Oblivious (cfg.move sn f count time))
    (hw : ∀ sn f count time, KeepsWeight cfg.A.weight (cfg.move sn f count time)) {init init' : List (String × List α)} {b b' : List K} {n : Nat}
    {i i' i0 i0' : Ideal K V α σ} {is is' : List (Ideal K V α σ)}
    (hr : Comp.run cfg sl D onMesh (some init) b n i = .ok (i0, is))
    (hr' : Comp.run cfg' sl' D onMesh' (some init') b' n i' = .ok (i0', is'))
    (hn : (i.pops.map (·.name)).Nodup) (hn' : (i'.pops.map (·.name)).Nodup) (hc : i'.count = i.count) (ht : i'.time = i.time)
    (hpo : SameActors (actors cfg.A.weight i.pops) (actors cfg.A.weight i'.pops))
    (hg : ∀ name ∈ (actors cfg.A.weight i.pops).map (·.1), (heavy cfg.A.weight (given (some init') name)).Perm (heavy cfg.A.weight (given (some init) name)))
    (hm : SameMade cfg.A.weight ((actors cfg.A.weight i.pops).map (·.1)) cfg cfg') :
    List.Forall₂ (ActAlike cfg.A.weight) (i0 :: is) (i0' :: is') :=
  (comp_run_acts hp hmv hw hr hr' hn hn' hc ht hpo hg hm).imp fun _ _ k => k.1

theorem actor_stored {weight : α → K} {S : Type} {nm : S → String} {P : S → List α → Prop} {sps sps' : List S} {l l' : List (Pop K V α)}
    (h : List.Forall₂ (fun sp p => nm sp = p.name ∧ P sp p.st.items) sps l)
    (h' : List.Forall₂ (fun sp p => nm sp = p.name ∧ P sp p.st.items) sps' l')
    (ha : SameActors (actors weight l) (actors weight l')) {name : String} (hn : name ∈ (actors weight l).map (·.1)) :
    ∃ sp ∈ sps, ∃ sp' ∈ sps', nm sp = name ∧ nm sp' = name ∧ ∃ xs xs', P sp xs ∧ P sp' xs' ∧ (heavy weight xs').Perm (heavy weight xs) := by
  obtain ⟨a, hm, rfl⟩ := List.mem_map.1 hn
  obtain ⟨a', hm', e1, -, e3⟩ : ∃ a' ∈ actors weight l', a'.1 = a.1 ∧ a'.2.1 = a.2.1 ∧ a'.2.2.Perm a.2.2 := by
    unfold SameActors at ha
    clear h h' hn
    generalize actors weight l = m at ha hm
    generalize actors weight l' = m' at ha
    induction ha with
    | nil => cases hm
    | cons h0 _ ih =>
      rcases List.mem_cons.1 hm with rfl | hm
      · exact ⟨_, by simp, h0⟩
      · obtain ⟨a', k1, k2⟩ := ih hm
        exact ⟨a', by simp [k1], k2⟩
  have find : ∀ {sps : List S} {l : List (Pop K V α)} (_ : List.Forall₂ (fun sp p => nm sp = p.name ∧ P sp p.st.items) sps l)
      {a : String × K × List α} (_ : a ∈ actors weight l), ∃ sp ∈ sps, nm sp = a.1 ∧ ∃ xs, P sp xs ∧ a.2.2 = heavy weight xs := by
    intro sps l h a hm
    unfold actors at hm
    obtain ⟨p, hp, rfl⟩ := List.mem_map.1 hm
    replace hp := (List.mem_filter.1 hp).1
    clear hm
    induction h with
    | nil => cases hp
    | cons h0 _ ih =>
      rcases List.mem_cons.1 hp with rfl | hp
      · exact ⟨_, by simp, h0.1, _, h0.2, rfl⟩
      · obtain ⟨sp, k1, k2⟩ := ih hp
        exact ⟨sp, by simp [k1], k2⟩
  obtain ⟨sp, m1, n1, xs, p1, q1⟩ := find h hm
  obtain ⟨sp', m2, n2, xs', p2, q2⟩ := find h' hm'
  exact ⟨sp, m1, sp', m2, n1, by rw [n2, e1], xs, xs', p1, p2, by rw [← q1, ← q2]; exact e3⟩

/-- C128.  For the programs: both end with the same potential, and with the same particles with weight in the containers
of the charged species. -/
theorem C128_program {C C' : Nat} {d d' : Nat → Nat} (hc : GoodCfg cfg) (hc' : GoodCfg cfg')
    (hm : GoodMesh cfg onMesh d D C) (hm' : GoodMesh cfg' onMesh' d' D C') (hp : SameLaws cfg cfg')
    (hmv : ∀ sn f count time, Oblivious (cfg.move sn f count time))
    (hw : ∀ sn f count time, KeepsWeight cfg.A.weight (cfg.move sn f count time)) {z z' : Species.HRow K} {n : Nat}
    {init init' : List (String × List α)} {st st' : State K V α σ φ} {i i' i0 i0' : Ideal K V α σ} {is is' : List (Ideal K V α σ)} {b b' : List K}
    (hf : Fresh sl D C n z st i b) (hf' : Fresh sl' D C' n z' st' i' b') (hwr : st.writer = none → cfg.partEvery = none)
    (hwr' : st'.writer = none → cfg'.partEvery = none) (hr : Ideal.run cfg sl D onMesh (some init) b n i = .ok (i0, is))
    (hr' : Ideal.run cfg' sl' D onMesh' (some init') b' n i' = .ok (i0', is'))
    (hn : (i.pops.map (·.name)).Nodup) (hn' : (i'.pops.map (·.name)).Nodup) (hco : i'.count = i.count) (ht : i'.time = i.time)
    (hpo : SameActors (actors cfg.A.weight i.pops) (actors cfg.A.weight i'.pops))
    (hg : ∀ name ∈ (actors cfg.A.weight i.pops).map (·.1), (heavy cfg.A.weight (given (some init') name)).Perm (heavy cfg.A.weight (given (some init) name)))
    (hmk : SameMade cfg.A.weight ((actors cfg.A.weight i.pops).map (·.1)) cfg cfg') :
    ∃ s s', run cfg (some init) n st = .ok s ∧ run cfg' (some init') n st' = .ok s' ∧
      s'.count = s.count ∧ s'.time = s.time ∧ s'.solver.phi = s.solver.phi ∧
      ∀ p ∈ i.pops, p.charge ≠ 0 → ∃ sp ∈ s.sps, ∃ sp' ∈ s'.sps, sp.name = p.name ∧ sp'.name = p.name ∧ ∃ xs xs', Stores sp.sap xs ∧
        Stores sp'.sap xs' ∧ (heavy cfg.A.weight xs').Perm (heavy cfg.A.weight xs) := by
  have k := C68_run hc hm n (some init) hf hwr
  have k' := C68_run hc' hm' n (some init') hf' hwr'
  rw [hr] at k
  rw [hr'] at k'
  obtain ⟨-, s, e, o⟩ := k
  obtain ⟨-, s', e', o'⟩ := k'
  obtain ⟨⟨l1, l2, l3, l4⟩, l5⟩ := last_forall₂ (run_acts hp hmv hw hr hr' hn hn' hco ht hpo hg hmk)
  refine ⟨s, s', e, e', ?_, ?_, ?_, fun p hp hch => ?_⟩
  · rw [o.count, o'.count]; exact l1
  · rw [o.time, o'.time]; exact l2
  · rw [o.phi, o'.phi]; exact l3
  · refine actor_stored (nm := fun sp : Sp K V α => sp.name) (P := fun sp : Sp K V α => Stores sp.sap) o.particles o'.particles l4 ?_
    rw [show lastOf i0 is = is.getLast?.getD i0 from rfl, l5]
    exact List.mem_map.2 ⟨_, List.mem_map_of_mem (List.mem_filter.2 ⟨hp, by simpa using hch⟩), rfl⟩

/-- C128.  For the compiled programs. -/
theorem C128_compiled_program {C C' : Nat} {d d' : Nat → Nat} (h2 : 2 ≤ sl) (h2' : 2 ≤ sl') (hc : CppLoop.GoodEvery cfg)
    (hc' : CppLoop.GoodEvery cfg') (hm : GoodMesh cfg onMesh d D C) (hm' : GoodMesh cfg' onMesh' d' D C') (hp : SameLaws cfg cfg')
    (hmv : ∀ sn f count time, Oblivious (cfg.move sn f count time))
    (hw : ∀ sn f count time, KeepsWeight cfg.A.weight (cfg.move sn f count time)) {skip skip' : Int} (hs : skip ≠ 0) (hs' : skip' ≠ 0) {n : Nat}
    {init init' : List (String × List α)} {st st' : CppLoop.State K V α σ φ} {i i' i0 i0' : Ideal K V α σ} {is is' : List (Ideal K V α σ)}
    {b b' : List K} (hf : CppLoop.Fresh sl D C skip st i b) (hf' : CppLoop.Fresh sl' D C' skip' st' i' b')
    (hwr : st.file = none → cfg.partEvery = none) (hwr' : st'.file = none → cfg'.partEvery = none)
    (hr : Comp.run cfg sl D onMesh (some init) b n i = .ok (i0, is))
    (hr' : Comp.run cfg' sl' D onMesh' (some init') b' n i' = .ok (i0', is'))
    (hn : (i.pops.map (·.name)).Nodup) (hn' : (i'.pops.map (·.name)).Nodup) (hco : i'.count = i.count) (ht : i'.time = i.time)
    (hpo : SameActors (actors cfg.A.weight i.pops) (actors cfg.A.weight i'.pops))
    (hg : ∀ name ∈ (actors cfg.A.weight i.pops).map (·.1), (heavy cfg.A.weight (given (some init') name)).Perm (heavy cfg.A.weight (given (some init) name)))
    (hmk : SameMade cfg.A.weight ((actors cfg.A.weight i.pops).map (·.1)) cfg cfg') :
    ∃ s s', CppLoop.run cfg (some init) n st = .ok s ∧ CppLoop.run cfg' (some init') n st' = .ok s' ∧
      s'.count = s.count ∧ s'.time = s.time ∧ s'.solver.phi = s.solver.phi ∧
      ∀ p ∈ i.pops, p.charge ≠ 0 → ∃ sp ∈ s.sps, ∃ sp' ∈ s'.sps, sp.name = p.name ∧ sp'.name = p.name ∧ ∃ xs xs', CStores sp.sap xs ∧
        CStores sp'.sap xs' ∧ (heavy cfg.A.weight xs').Perm (heavy cfg.A.weight xs) := by
  have k := C109_run h2 hc hm hs n (some init) hf hwr
  have k' := C109_run h2' hc' hm' hs' n (some init') hf' hwr'
  rw [hr] at k
  rw [hr'] at k'
  obtain ⟨-, s, e, o⟩ := k
  obtain ⟨-, s', e', o'⟩ := k'
  obtain ⟨⟨l1, l2, l3, l4⟩, l5⟩ := last_forall₂ (comp_run_acts hp hmv hw hr hr' hn hn' hco ht hpo hg hmk)
  refine ⟨s, s', e, e', ?_, ?_, ?_, fun p hp hch => ?_⟩
  · rw [o.count, o'.count]; exact l1
  · rw [o.time, o'.time]; exact l2
  · rw [o.phi, o'.phi]; exact l3
  · refine actor_stored (nm := fun sp : CppLoop.Sp K V α => sp.name) (P := fun sp : CppLoop.Sp K V α => CStores sp.sap) o.particles o'.particles l4 ?_
    rw [show lastOf i0 is = is.getLast?.getD i0 from rfl, l5]
    exact List.mem_map.2 ⟨_, List.mem_map_of_mem (List.mem_filter.2 ⟨hp, by simpa using hch⟩), rfl⟩

end

section
variable {g p : Nat} {τ ρ : Type}

/-- Callbacks that do not write the other attributes (weight, unique id) of the particle. -/
def Spec.KeepsRest (bc : Int → τ → BCall K g p ρ → Except Err (τ × Part K p ρ)) : Prop :=
  ∀ value st call st' q, bc value st call = .ok (st', q) → q.rest = call.part.rest

theorem crossed_rest {h : g ≤ p} {M : Mesh K g} {v : Variant} {bc : Int → τ → BCall K g p ρ → Except Err (τ × Part K p ρ)}
    (hbc : KeepsRest bc) {s s' : Trk K p τ ρ} {brk : Bool} (e : Crossed h M v bc s s' brk) : s'.part.rest = s.part.rest := by
  obtain ⟨cFacet, mFacet, new, f, n, c, st1, q, q1, evs, -, -, -, -, -, -, rfl, hb, -, -, -, -, -, -, -, hres⟩ := e.ex
  have hq : q1.rest = s.part.rest := by
    split at hb
    · rw [hb.2.1]
    · exact hbc _ _ _ _ _ hb.1
  split at hres
  · rw [hres.2.2]
    split <;> exact hq
  · rw [hres.2.2]; exact hq

theorem track_rest {h : g ≤ p} {M : Mesh K g} {v : Variant} {bc : Int → τ → BCall K g p ρ → Except Err (τ × Part K p ρ)}
    (hbc : KeepsRest bc) {n : Nat} {s s' : Trk K p τ ρ} (e : track h M v bc n s = .ok s') : s'.part.rest = s.part.rest := by
  rw [track_ok_iff] at e
  obtain ⟨k, -, -, hh⟩ := e
  have aux : ∀ {k : Nat} {s s' : Trk K p τ ρ}, CrossN h M v bc k s s' → s'.part.rest = s.part.rest := by
    intro k s s' hc
    induction hc with
    | zero s => rfl
    | succ out e r ih => rw [ih, crossed_rest hbc (crossOnce_ok e)]
  rcases hh with ⟨hh, -⟩ | ⟨j, s0, -, hh, -, hlast⟩
  · exact aux hh
  · rw [crossed_rest hbc (crossOnce_ok hlast), aux hh]

/-- C128.  The Python mover keeps the weights (and all attributes it does not know) of the particles, if the callbacks do. -/
theorem C128_mover (hgp : g ≤ p) (M : Mesh K g) {bc : String → Int → τ → BCall K g p ρ → Except Err (τ × Part K p ρ)}
    (hbc : ∀ sn, KeepsRest (bc sn)) (maxCross : Nat) (dt : K) (qom : String → K) (E : String → φ → Part K p ρ → Option (Vec K p))
    (sn : String) (f : φ) (count : Int) (time : K) {st st' : τ × Vec K p} {i o : Int} {b k : Bool} {q q' : Part K p ρ}
    (h : pyMove hgp M bc maxCross dt qom E sn f count time st i o b q = .ok (st', q', k)) : q'.rest = q.rest := by
  unfold pyMove plainAdv moveCharged at h
  simp only [bind, Except.bind, pure, Except.pure] at h
  split at h
  · cases h
  · rename_i t ht
    cases h
    split at ht
    · cases ht
    · rename_i s hs
      cases ht
      have := track_rest (hbc sn) hs
      dsimp only
      rw [this]
      unfold startTrk moveBy accelerate
      dsimp only
      simp only [Bool.false_eq_true, if_false]
      split <;> rfl

/-- C128.  So does the compiled mover, on every triangulation. -/
theorem C128_compiled_mover {hg : g ≤ 3} {D : DMesh K g} (hD : Triangulation hg D) {nVerts : Nat} (hnum : Numbered D nVerts)
    (marker : Int → Int) : ∃ cm, buildCpp D nVerts marker = .ok cm ∧
    ∀ (hgp : g ≤ p) {L : Layout K p}, L.Right → ∀ {bc : String → Int → τ → BCall K g p ρ → Except Err (τ × Part K p ρ)},
      (∀ sn, KeepsRest (bc sn)) → ∀ (maxCross : Nat) (dt : K) (qom : String → K) (E : String → φ → Part K p ρ → Option (Vec K p))
      (sn : String) (f : φ) (count : Int) (time : K) {st st' : (τ × Vec K p) × Scratch K} {i o : Int} {b k : Bool} {q q' : Part K p ρ},
      CppLoop.cppMove hgp L cm bc maxCross dt qom E sn f count time st i o b q = .ok (st', q', k) → q'.rest = q.rest := by
  obtain ⟨M, cm, -, ecm, ht⟩ := C107_same_mesh hD hnum 0 marker
  refine ⟨cm, ecm, fun hgp L hL bc hbc maxCross dt qom E sn f count time st st' i o b k q q' h => ?_⟩
  rcases (C109_movers ht hgp hL (bcC := bc) (bcP := bc) (fun _ _ _ _ _ => Iff.rfl) maxCross dt qom E sn f count time st st.1 i o b q rfl).cases with
    ⟨e1, e2, h1, h2⟩ | ⟨s1, s2, r, h1, h2, -⟩
  · rw [h1] at h; cases h
  · rw [h1] at h
    cases h
    exact C128_mover hgp M hbc maxCross dt qom E sn f count time h2

end

/-! ### Electrons between the plates of the two triangles, with and without test electrons and a neutral gas -/

section Demo

/-- The simulation of C96 with weights. -/
def weighedCfg : Cfg ℚ ℚ KitePart (Unit × Vec ℚ 2) (List (Vec ℚ 2)) := { kiteCfg with A := ⟨fun q => q.cell.toNat, fun q => (q.rest : ℚ) / 28⟩ }

/-- Electrons, and neutral atoms. -/
def gasIdeal : Ideal ℚ ℚ KitePart (Unit × Vec ℚ 2) :=
  ⟨0, 0, [⟨"H", 0, 2, 2, ⟨[], false⟩⟩, ⟨"e", -1, 1, 1, ⟨[], false⟩⟩], ((), ![0, 0]), []⟩

/-- The electrons of C96, a test electron, and two atoms. -/
def gasInit : List (String × List KitePart) :=
  [("H", [kitePart 1 (1/2) 0 0 0, kitePart 1 (-1/2) 0 0 1]),
   ("e", [kitePart 1 (1/2) 0 (-1) 0, { kitePart 1 (1/4) 1 0 0 with rest := 0 }, kitePart 1 (-1/2) 0 1 1, kitePart 1 (-3/4) 0 (-3) 1])]

abbrev weighedRun (n : Nat) := Ideal.run weighedCfg 2 4 onKite (some kiteInit) [0, 0, 0, 0] n kiteIdeal
abbrev gasRun (n : Nat) := Ideal.run weighedCfg 2 4 onKite (some gasInit) [0, 0, 0, 0] n gasIdeal

theorem weighed_keeps (sn : String) (f : List (Vec ℚ 2)) (count : Int) (time : ℚ) :
    KeepsWeight weighedCfg.A.weight (weighedCfg.move sn f count time) := by
  intro st i o b q st' q' k h
  have h0 : ∀ _ : String, KeepsRest kiteSink := by
    intro _ value st call st' q e
    cases e
    rfl
  have := C128_mover (le_refl 2) kiteMesh h0 10 (1 / 2) (fun _ => -1) (fun _ f q => (f[q.cell.toNat]?).map (fun e => -e)) sn f count time (i := i) (o := o) (b := b) h
  show ((q'.rest : ℚ) / 28 = 0) ↔ ((q.rest : ℚ) / 28 = 0)
  rw [this]

theorem kite_actors (weight : KitePart → ℚ) : actors weight kiteIdeal.pops = [("e", -1, [])] := by simp [actors, heavy, kiteIdeal]
theorem gas_actors (weight : KitePart → ℚ) : actors weight gasIdeal.pops = [("e", -1, [])] := by simp [actors, heavy, gasIdeal]

theorem weighed_memoryless (sn : String) (f : List (Vec ℚ 2)) (count : Int) (time : ℚ) : Oblivious (weighedCfg.move sn f count time) :=
  kite_memoryless sn f count time

theorem gas_given : ∀ name ∈ (actors weighedCfg.A.weight kiteIdeal.pops).map (·.1),
    (heavy weighedCfg.A.weight (given (some gasInit) name)).Perm (heavy weighedCfg.A.weight (given (some kiteInit) name)) := by
  rw [kite_actors]
  intro name hname
  simp only [List.map_cons, List.map_nil, List.mem_singleton] at hname
  subst hname
  have h1 : heavy weighedCfg.A.weight (given (some gasInit) "e") = [kitePart 1 (1/2) 0 (-1) 0, kitePart 1 (-1/2) 0 1 1, kitePart 1 (-3/4) 0 (-3) 1] := by
    simp [heavy, given, gasInit, weighedCfg, kitePart]
  have h2 : heavy weighedCfg.A.weight (given (some kiteInit) "e") = [kitePart 1 (-1/2) 0 1 1, kitePart 1 (-3/4) 0 (-3) 1, kitePart 1 (1/2) 0 (-1) 0] := by
    simp [heavy, given, kiteInit, weighedCfg, kitePart]
  rw [h1, h2]
  exact (List.perm_append_comm (l₁ := [kitePart 1 (1/2) 0 (-1) 0]))

/-- C128 applies: neither the test electron nor the atoms change the motion of the electrons, or the potential. -/
theorem gas_run (n : Nat) {i0 i0' : Ideal ℚ ℚ KitePart (Unit × Vec ℚ 2)} {is is' : List (Ideal ℚ ℚ KitePart (Unit × Vec ℚ 2))}
    (hr : weighedRun n = .ok (i0, is)) (hr' : gasRun n = .ok (i0', is')) :
    List.Forall₂ (ActAlike weighedCfg.A.weight) (i0 :: is) (i0' :: is') := by
  refine C128_run (cfg := weighedCfg) (cfg' := weighedCfg) ⟨rfl, rfl, rfl, rfl, rfl, rfl, rfl, rfl⟩ weighed_memoryless weighed_keeps hr hr'
    (by decide) (by decide) rfl rfl ?_ gas_given ?_
  · rw [kite_actors, gas_actors]
    exact .cons ⟨rfl, rfl, .refl _⟩ .nil
  · intro name _ count time side side'
    exact .refl _

/-- The program for the gas. -/
def gasState (n : Nat) : State ℚ ℚ KitePart (Unit × Vec ℚ 2) (List (Vec ℚ 2)) := { kiteState n with
  sps := [⟨"H", SAP.new 2 (kitePart 0 0 0 0 0), 0, 2, 2, [0, 0, 0, 0], [0, 0]⟩, ⟨"e", SAP.new 2 (kitePart 0 0 0 0 0), -1, 1, 1, [0, 0, 0, 0], [0, 0]⟩] }

theorem gas_fresh (n : Nat) : Fresh 2 (3 + 1) 2 n ⟨0, 0, []⟩ (gasState n) gasIdeal [0, 0, 0, 0] := by
  refine ⟨rfl, rfl, rfl, rfl, rfl, ?_, ?_, ?_, ?_, rfl, rfl⟩
  · exact .cons ⟨rfl, rfl, rfl, rfl, ⟨SAP.Reachable.new 2 _ (by decide), SAP.new_sim 2 _ (by decide), rfl⟩,
      rfl, rfl⟩ (.cons ⟨rfl, rfl, rfl, rfl, ⟨SAP.Reachable.new 2 _ (by decide), SAP.new_sim 2 _ (by decide), rfl⟩,
      rfl, rfl⟩ .nil)
  · intro p hp
    simp only [gasIdeal, List.mem_cons, List.not_mem_nil, or_false] at hp
    rcases hp with rfl | rfl <;> rfl
  · exact Or.inr ⟨_, rfl, newWriter_ready 2 2 (by decide) 0, rfl, by simp [Output.newWriter, gasIdeal]⟩
  · simp [HistIs, gasState, kiteState]

theorem weighed_goodCfg : GoodCfg weighedCfg := by
  obtain ⟨⟨a, b⟩, c, d, e, f⟩ := kite_goodCfg
  exact ⟨⟨a, b⟩, c, d, e, f⟩

theorem weighed_goodMesh : GoodMesh weighedCfg onKite (fun k => k) (3 + 1) 2 := by
  obtain ⟨a, b, c⟩ := kite_goodMesh
  exact ⟨fun q hq => by obtain ⟨a1, a2, a3⟩ := a q hq; exact ⟨a1, a2, a3⟩, b, c⟩

example (n : Nat) {i0 i0' : Ideal ℚ ℚ KitePart (Unit × Vec ℚ 2)} {is is' : List (Ideal ℚ ℚ KitePart (Unit × Vec ℚ 2))}
    (hr : weighedRun n = .ok (i0, is)) (hr' : gasRun n = .ok (i0', is')) :
    ∃ s s', run weighedCfg (some kiteInit) n (kiteState n) = .ok s ∧ run weighedCfg (some gasInit) n (gasState n) = .ok s' ∧
      s'.solver.phi = s.solver.phi := by
  obtain ⟨s, s', h1, h2, -, -, h3, -⟩ := C128_program (cfg := weighedCfg) (cfg' := weighedCfg) weighed_goodCfg weighed_goodCfg weighed_goodMesh
    weighed_goodMesh ⟨rfl, rfl, rfl, rfl, rfl, rfl, rfl, rfl⟩ weighed_memoryless weighed_keeps (kite_fresh n) (gas_fresh n)
    (by simp [kiteState]) (by simp [gasState, kiteState]) hr hr' (by decide) (by decide) rfl rfl
    (by rw [kite_actors, gas_actors]; exact .cons ⟨rfl, rfl, .refl _⟩ .nil) gas_given (fun name _ count time side side' => .refl _)
  exact ⟨s, s', h1, h2, h3⟩

/-- With compiled movers. -/
def weighedCppCfg : Cfg ℚ ℚ KitePart ((Unit × Vec ℚ 2) × Scratch ℚ) (List (Vec ℚ 2)) := { kiteCppCfg with A := weighedCfg.A }

def gasCppIdeal : Ideal ℚ ℚ KitePart ((Unit × Vec ℚ 2) × Scratch ℚ) :=
  ⟨0, 0, [⟨"H", 0, 2, 2, ⟨[], false⟩⟩, ⟨"e", -1, 1, 1, ⟨[], false⟩⟩], (((), ![0, 0]), fun _ => 99), []⟩

theorem weighedCpp_keeps (sn : String) (f : List (Vec ℚ 2)) (count : Int) (time : ℚ) :
    KeepsWeight weighedCppCfg.A.weight (weighedCppCfg.move sn f count time) := by
  intro st i o b q st' q' k h
  have h0 : ∀ _ : String, KeepsRest kiteSink := by
    intro _ value st call st' q e
    cases e
    rfl
  obtain ⟨cm, ecm, key⟩ := C128_compiled_mover (p := 2) (τ := Unit) (ρ := Nat) (φ := List (Vec ℚ 2)) kite_triangulation kite_numbered (fun F => if F = 1 then 0 else 1)
  have hcm : kiteCpp = cm := by unfold kiteCpp; rw [ecm]; rfl
  have := key (le_refl 2) C66_layouts.2.1 h0 10 (1 / 2) (fun _ => -1) (fun _ f q => (f[q.cell.toNat]?).map (fun e => -e)) sn f count time
    (st := st) (st' := st') (i := i) (o := o) (b := b) (k := k) (q := q) (q' := q')
  rw [← hcm] at this
  show ((q'.rest : ℚ) / 28 = 0) ↔ ((q.rest : ℚ) / 28 = 0)
  rw [this h]

example (n : Nat) {i0 i0' : Ideal ℚ ℚ KitePart ((Unit × Vec ℚ 2) × Scratch ℚ)} {is is' : List (Ideal ℚ ℚ KitePart ((Unit × Vec ℚ 2) × Scratch ℚ))}
    (hr : Comp.run weighedCppCfg 2 4 onKite (some kiteInit) [0, 0, 0, 0] n kiteCppIdeal = .ok (i0, is))
    (hr' : Comp.run weighedCppCfg 2 4 onKite (some gasInit) [0, 0, 0, 0] n gasCppIdeal = .ok (i0', is')) :
    List.Forall₂ (ActAlike weighedCppCfg.A.weight) (i0 :: is) (i0' :: is') := by
  refine C128_compiled (cfg := weighedCppCfg) (cfg' := weighedCppCfg) ⟨rfl, rfl, rfl, rfl, rfl, rfl, rfl, rfl⟩ kiteCpp_memoryless weighedCpp_keeps
    hr hr' (by decide) (by decide) rfl rfl ?_ gas_given ?_
  · have h1 : actors weighedCppCfg.A.weight kiteCppIdeal.pops = [("e", -1, [])] := by simp [actors, heavy, kiteCppIdeal]
    have h2 : actors weighedCppCfg.A.weight gasCppIdeal.pops = [("e", -1, [])] := by simp [actors, heavy, gasCppIdeal]
    rw [h1, h2]
    exact .cons ⟨rfl, rfl, .refl _⟩ .nil
  · intro name _ count time side side'
    exact .refl _
example : (Comp.run weighedCppCfg 2 4 onKite (some kiteInit) [0, 0, 0, 0] 2 kiteCppIdeal).toOption.isSome = true ∧
    (Comp.run weighedCppCfg 2 4 onKite (some gasInit) [0, 0, 0, 0] 2 gasCppIdeal).toOption.isSome = true := by decide +kernel

/-- Both simulations run; the numbers of particles of the second are the atoms, and the electrons with the test electron, which leaves in the second step. -/
example : ((gasRun 2).toOption.map fun r => (r.1 :: r.2).map fun i => i.pops.map fun p => p.st.items.length) = some [[2, 4], [2, 3], [2, 1]] ∧
    ((weighedRun 2).toOption.map fun r => (r.1 :: r.2).map fun i => i.pops.map fun p => p.st.items.length) = some [[3], [2], [1]] := by decide +kernel

end Demo

end Dt
