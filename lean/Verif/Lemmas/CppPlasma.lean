import Verif.Props.CppLoop
import Verif.Props.Leapfrog
import Verif.Props.Plasma
import Verif.Spec.CppPlasma

/-!
# What happens to the particles in a compiled simulation on lists
-/

set_option linter.unusedSectionVars false

namespace Dt.CppPlasma
open TimeLoop (Cfg Src AllOf)
open Spec (LState Pop Ideal)
open Spec.Comp (Fault)
variable {K V α σ φ κ : Type} [Field K] [LinearOrder K]

theorem appendAll_items {array : Bool} {sl : Nat} {st st' : LState α} {xs : List α}
    (e : Spec.Comp.appendAll array sl st xs = .ok st') : st'.items = st.items ++ xs := by
  induction xs generalizing st with
  | nil => cases e; simp
  | cons x xs ih =>
    simp only [Spec.Comp.appendAll] at e
    split at e
    · cases e
    · rw [ih e]; simp

theorem appendTo_at {array : Bool} {sl : Nat} {name : String} {xs : List α} {ps ps' : List (Pop K V α)}
    (hn : (ps.map (·.name)).Nodup) (h : Spec.Comp.appendTo array sl name xs ps = .ok ps') :
    List.Forall₂ (fun p p' => p'.name = p.name ∧ p'.charge = p.charge ∧ p'.mass = p.mass ∧
      p'.index = p.index ∧ p'.st.items = p.st.items ++ (if name = p.name then xs else [])) ps ps' := by
  induction ps generalizing ps' with
  | nil => simp [Spec.Comp.appendTo] at h
  | cons p ps ih =>
    simp only [Spec.Comp.appendTo] at h
    split at h
    · rename_i hp
      split at h
      · cases h
      · rename_i st hst
        cases h
        refine .cons ⟨rfl, rfl, rfl, rfl, by simp [hp, appendAll_items hst]⟩ ?_
        simp only [List.map_cons, List.nodup_cons, List.mem_map, not_exists, not_and] at hn
        have hne : ∀ q ∈ ps, name ≠ q.name := fun q hq hcc => hn.1 q hq (by rw [hp, hcc])
        rw [List.forall₂_same]
        intro q hq
        simp [hne q hq]
    · rename_i hp
      split at h
      · cases h
      · rename_i ps2 hps
        cases h
        simp only [List.map_cons, List.nodup_cons] at hn
        exact .cons ⟨rfl, rfl, rfl, rfl, by simp [Ne.symm hp]⟩ (ih hn.2 hps)

theorem createAll_at {sl : Nat} {count : Int} {time : K} {ss : List (Src K α σ)}
    {ps ps' : List (Pop K V α)} {side side' : σ} (hn : (ps.map (·.name)).Nodup)
    (h : Spec.Comp.createAll sl count time ss ps side = .ok (ps', side')) :
    List.Forall₂ (fun p p' => p'.name = p.name ∧ p'.charge = p.charge ∧ p'.mass = p.mass ∧
      p'.index = p.index ∧ p'.st.items = p.st.items ++ Spec.created p.name count time ss side) ps ps' := by
  induction ss generalizing ps side with
  | nil =>
    simp only [Spec.Comp.createAll, Except.ok.injEq, Prod.mk.injEq] at h
    rw [← h.1, List.forall₂_same]
    simp [Spec.created]
  | cons s ss ih =>
    simp only [Spec.Comp.createAll] at h
    simp only [Spec.created]
    split at h
    · cases h
    · split at h
      · rename_i hd
        split at h
        · cases h
        · rename_i side2 xs hmk
          simp only [if_pos hd]
          split at h
          · cases h
          · rename_i ps2 hps
            have h1 := appendTo_at hn hps
            have h2 := ih (by rw [forall₂_names h1 (fun _ _ k => k.1)]; exact hn) h
            refine forall₂_trans' ?_ h1 h2
            rintro a b c ⟨n1, c1, m1, i1, e1⟩ ⟨n2, c2, m2, i2, e2⟩
            refine ⟨n2.trans n1, c2.trans c1, m2.trans m1, i2.trans i1, ?_⟩
            rw [e2, e1, n1, List.append_assoc, hmk]
      · rename_i hd
        simp only [if_neg hd]
        exact ih hn h

theorem created_all {P : α → Prop} {name : String} {count : Int} {time : K} {ss : List (Src K α σ)}
    (hs : ∀ s ∈ ss, ∀ count time side side' xs, s.make count time side = .ok (side', xs) → ∀ q ∈ xs, P q) (side : σ) :
    ∀ q ∈ Spec.created name count time ss side, P q := by
  induction ss generalizing side with
  | nil => simp [Spec.created]
  | cons s ss ih =>
    have ih := ih (fun s hs' => hs s (by simp [hs']))
    intro q hq
    simp only [Spec.created] at hq
    split at hq
    · split at hq
      · cases hq
      · rename_i side' xs hmk
        rcases List.mem_append.1 hq with hq | hq
        · split at hq
          · exact hs s (by simp) _ _ _ _ _ hmk q hq
          · cases hq
        · exact ih _ q hq
    · exact ih _ q hq

theorem moveAll_filter (key : α → κ) (F : String → α → κ) (keep : κ → Bool) {sl : Nat}
    {mv : String → Adv σ α} {P : α → Prop}
    {ps ps' : List (Pop K V α)} (hk : ∀ s ∈ ps, ∀ st i o b x st' y f, P x →
      mv s.name st i o b x = .ok (st', y, f) → key y = F s.name x ∧ f = keep (F s.name x))
    (hx : AllOf P ps) {side side' : σ} (h : Spec.Comp.moveAll sl mv ps side = .ok (ps', side')) :
    List.Forall₂ (fun s s' => s'.name = s.name ∧ s'.charge = s.charge ∧ s'.mass = s.mass ∧
      s'.index = s.index ∧ s'.st.items.map key = if s.charge = 0 then s.st.items.map key
        else (s.st.items.map (F s.name)).filter keep) ps ps' := by
  induction ps generalizing ps' side with
  | nil =>
    simp only [Spec.Comp.moveAll, Except.ok.injEq, Prod.mk.injEq] at h
    rw [← h.1]; exact .nil
  | cons s ps ih =>
    simp only [Spec.Comp.moveAll] at h
    split at h
    · cases h
    · rename_i p' side1 hp
      split at h
      · cases h
      · rename_i ps2 side2 hps
        cases h
        refine .cons ?_ (ih (fun s hs => hk s (by simp [hs])) (fun s hs => hx s (by simp [hs])) hps)
        unfold Spec.Comp.movePop at hp
        split at hp
        · rename_i hc
          cases hp
          refine ⟨rfl, rfl, rfl, rfl, ?_⟩
          split
          · rfl
          · rename_i h0
            rw [hc.resolve_left h0]; rfl
        · rename_i hne
          split at hp
          · cases hp
          · split at hp
            · cases hp
            · rename_i side3 ys hpass
              cases hp
              refine ⟨rfl, rfl, rfl, rfl, ?_⟩
              rw [if_neg (fun h0 => hne (.inl h0))]
              exact pass_filter key (F s.name) keep (hk s (by simp)) (hx s (by simp)) hpass

theorem pass_keeps {P : α → Prop} {adv : Adv σ α}
    (hk : ∀ st i o b x st' y, P x → adv st i o b x = .ok (st', y, true) → P y)
    {xs ys : List α} (hx : ∀ x ∈ xs, P x) : ∀ {st st' : σ} {i o : Nat},
      Spec.pass adv st i o xs = .ok (st', ys) → ∀ y ∈ ys, P y := by
  induction xs generalizing ys with
  | nil =>
    intro st st' i o h
    simp only [Spec.pass, Except.ok.injEq, Prod.mk.injEq] at h
    rw [← h.2]; simp
  | cons x xs ih =>
    intro st st' i o h
    have hx' : ∀ y ∈ xs, P y := fun y hy => hx y (by simp [hy])
    simp only [Spec.pass] at h
    split at h
    · cases h
    · rename_i s1 y he
      have h1 := hk _ _ _ _ _ _ _ (hx x (by simp)) he
      split at h
      · cases h
      · rename_i s2 zs hz
        cases h
        intro w hw
        rcases List.mem_cons.1 hw with rfl | hw
        · exact h1
        · exact ih hx' hz w hw
    · rename_i s1 y he
      exact ih hx' h

theorem moveAll_keeps {P : α → Prop} {sl : Nat} {mv : String → Adv σ α}
    (hk : ∀ sn st i o b x st' y, P x → mv sn st i o b x = .ok (st', y, true) → P y)
    {ps ps' : List (Pop K V α)} (hx : AllOf P ps) {side side' : σ}
    (h : Spec.Comp.moveAll sl mv ps side = .ok (ps', side')) : AllOf P ps' := by
  induction ps generalizing ps' side with
  | nil =>
    simp only [Spec.Comp.moveAll, Except.ok.injEq, Prod.mk.injEq] at h
    rw [← h.1]; exact hx
  | cons s ps ih =>
    simp only [Spec.Comp.moveAll] at h
    split at h
    · cases h
    · rename_i p' side1 hp
      split at h
      · cases h
      · rename_i ps2 side2 hps
        cases h
        have h2 := ih (fun s hs => hx s (by simp [hs])) hps
        intro q hq
        rcases List.mem_cons.1 hq with rfl | hq
        · unfold Spec.Comp.movePop at hp
          split at hp
          · cases hp
            exact hx _ (by simp)
          · split at hp
            · cases hp
            · split at hp
              · cases hp
              · rename_i side3 ys hpass
                cases hp
                exact pass_keeps (hk s.name) (hx s (by simp)) hpass
        · exact h2 q hq

/-- One step of a compiled simulation on lists in which a successful move is `F`, and drops the particles for which
`keep` does not hold. -/
theorem step_filter {cfg : Cfg K V α σ φ} {sl D : Nat} {onMesh : α → Bool} {P : α → Prop} (key : α → κ)
    (F : String → φ → α → κ) (keep : κ → Bool)
    (hk : ∀ sn f c t st i o b x st' y k, P x → cfg.move sn f c t st i o b x = .ok (st', y, k) →
      key y = F sn f x ∧ k = keep (F sn f x) ∧ (k = true → P y))
    (hsrc : ∀ s ∈ cfg.sources, ∀ count time side side' xs, s.make count time side = .ok (side', xs) → ∀ q ∈ xs, P q)
    {i j : Ideal K V α σ} (hn : (i.pops.map (·.name)).Nodup) (hp : AllOf P i.pops)
    (e : Spec.Comp.step cfg sl D onMesh i = .ok j) :
    j.count = i.count + 1 ∧ j.time = i.time + cfg.dt ∧ j.phi = Spec.potential cfg D j.pops ∧ AllOf P j.pops ∧
    List.Forall₂ (fun s s' => s'.name = s.name ∧ s'.charge = s.charge ∧ s'.mass = s.mass ∧ s'.index = s.index ∧
      s'.st.items.map key = (if s.charge = 0 then s.st.items.map key
        else (s.st.items.map (F s.name (cfg.fieldOf i.phi))).filter keep) ++
        (Spec.Comp.made cfg sl s.name i).map key) i.pops j.pops := by
  simp only [Spec.Comp.step] at e
  unfold Spec.Comp.made
  split at e
  · cases e
  · rename_i ps side hmv
    split at e
    · cases e
    · rename_i ps2 side2 hcr
      have h1 := moveAll_filter key (fun sn q => F sn (cfg.fieldOf i.phi) q) keep (P := P)
        (fun s _ st a o b x st' y f hx ey => by
          obtain ⟨k1, k2, -⟩ := hk _ _ _ _ _ _ _ _ _ _ _ _ hx ey
          exact ⟨k1, k2⟩) hp hmv
      have h1' := moveAll_keeps (P := P) (fun sn st i o b x st' y hx ey => (hk _ _ _ _ _ _ _ _ _ _ _ _ hx ey).2.2 rfl) hp hmv
      have h2 := createAll_at (by rw [forall₂_names h1 (fun _ _ k => k.1)]; exact hn) hcr
      have h2' : AllOf P ps2 := by
        clear h1 hmv e hcr
        induction h2 with
        | nil => exact fun _ h => by cases h
        | @cons a b as bs hab _ ih =>
          intro q hq
          rcases List.mem_cons.1 hq with rfl | hq
          · intro x hx
            rw [hab.2.2.2.2] at hx
            rcases List.mem_append.1 hx with hx | hx
            · exact h1' a (by simp) x hx
            · exact created_all hsrc _ x hx
          · exact ih (fun q hq => h1' q (by simp [hq])) q hq
      unfold Spec.Comp.settle at e
      split at e
      · cases e
        refine ⟨rfl, rfl, ?_, ?_, ?_⟩
        · simp [Spec.potential, Spec.chargeAt, Spec.looked, Function.comp_def]
        · intro q hq
          obtain ⟨q', hq', rfl⟩ := List.mem_map.1 hq
          exact h2' q' hq'
        have h3 : List.Forall₂ (fun p p' => p' = Spec.looked p) ps2 (ps2.map Spec.looked) := by
          generalize ps2 = l
          induction l with
          | nil => exact .nil
          | cons a as ih => exact .cons rfl ih
        refine forall₂_trans' ?_ (forall₂_trans' (T := fun s s' => s'.name = s.name ∧
          s'.charge = s.charge ∧ s'.mass = s.mass ∧ s'.index = s.index ∧
          s'.st.items.map key = (if s.charge = 0 then s.st.items.map key
            else (s.st.items.map (F s.name (cfg.fieldOf i.phi))).filter keep) ++
            (Spec.created s.name (i.count + 1) (i.time + cfg.dt) cfg.sources side).map key) ?_ h1 h2) h3
        · rintro a b c ⟨e1, e2, e3, e4, e5⟩ rfl
          refine ⟨e1, e2, e3, e4, ?_⟩
          rw [hmv]
          exact e5
        · rintro a b c ⟨n1, c1, m1, i1, s1⟩ ⟨n2, c2, m2, i2, s2⟩
          refine ⟨n2.trans n1, c2.trans c1, m2.trans m1, i2.trans i1, ?_⟩
          rw [s2, List.map_append, s1, n1]
      · cases e

theorem appendGroups_keeps {P : α → Prop} {sl : Nat} {gs : List (String × List α)} (hg : ∀ a ∈ gs, ∀ q ∈ a.2, P q)
    {ps ps' : List (Pop K V α)} (hn : (ps.map (·.name)).Nodup) (hp : AllOf P ps)
    (e : Spec.Comp.appendGroups sl gs ps = .ok ps') : AllOf P ps' ∧ ps'.map (·.name) = ps.map (·.name) := by
  induction gs generalizing ps with
  | nil => cases e; exact ⟨hp, rfl⟩
  | cons g gs ih =>
    simp only [Spec.Comp.appendGroups] at e
    split at e
    · cases e
    · rename_i ps2 h2
      have h1 := appendTo_at hn h2
      have hnm := forall₂_names h1 (fun _ _ k => k.1)
      have : AllOf P ps2 := by
        clear hnm e h2
        have hg1 := hg g (by simp)
        induction h1 with
        | nil => exact fun _ h => by cases h
        | @cons a b as bs hab _ ih =>
          intro q hq
          rcases List.mem_cons.1 hq with rfl | hq
          · intro x hx
            rw [hab.2.2.2.2] at hx
            rcases List.mem_append.1 hx with hx | hx
            · exact hp a (by simp) x hx
            · split at hx
              · exact hg1 x hx
              · cases hx
          · exact ih (by simpa using (List.nodup_cons.1 (by simpa using hn)).2) (fun q hq => hp q (by simp [hq])) q hq
      obtain ⟨r1, r2⟩ := ih (fun a ha => hg a (by simp [ha])) (by rw [hnm]; exact hn) this e
      exact ⟨r1, r2.trans hnm⟩

/-- A whole compiled simulation on lists: what holds of its states, and the steps. -/
theorem run_filter {cfg : Cfg K V α σ φ} {sl D : Nat} {onMesh : α → Bool} {P : α → Prop} (key : α → κ)
    (F : String → φ → α → κ) (keep : κ → Bool)
    (hk : ∀ sn f c t st i o b x st' y k, P x → cfg.move sn f c t st i o b x = .ok (st', y, k) →
      key y = F sn f x ∧ k = keep (F sn f x) ∧ (k = true → P y))
    (hsrc : ∀ s ∈ cfg.sources, ∀ count time side side' xs, s.make count time side = .ok (side', xs) → ∀ q ∈ xs, P q)
    {init : Option (List (String × List α))} (hinit : ∀ gs, init = some gs → ∀ a ∈ gs, ∀ q ∈ a.2, P q)
    {n : Nat} {i : Ideal K V α σ} {b : List K} (hemp : ∀ p ∈ i.pops, p.st = ⟨[], false⟩)
    (hn : (i.pops.map (·.name)).Nodup) {i0 : Ideal K V α σ} {is : List (Ideal K V α σ)}
    (hr : Spec.Comp.run cfg sl D onMesh init b n i = .ok (i0, is)) :
    (∀ j ∈ i0 :: is, AllOf P j.pops) ∧
    (init = none → ∀ p ∈ i0.pops, p.st.items = []) ∧
    (∀ j ∈ (if init.isSome then [i0] else []) ++ is, j.phi = Spec.potential cfg D j.pops) ∧
    (i0 :: is).IsChain (fun i j => j.count = i.count + 1 ∧ j.time = i.time + cfg.dt ∧
      List.Forall₂ (fun s s' => s'.name = s.name ∧ s'.charge = s.charge ∧ s'.mass = s.mass ∧ s'.index = s.index ∧
        s'.st.items.map key = (if s.charge = 0 then s.st.items.map key
          else (s.st.items.map (F s.name (cfg.fieldOf i.phi))).filter keep) ++
          (Spec.Comp.made cfg sl s.name i).map key) i.pops j.pops) := by
  have he : AllOf P i.pops := fun p hp x hx => by rw [hemp p hp] at hx; cases hx
  unfold Spec.Comp.run at hr
  split at hr
  · cases hr
  · rename_i j0 h0
    split at hr
    · cases hr
    · rename_i js hs
      cases hr
      have hstart : AllOf P i0.pops ∧ i0.pops.map (·.name) = i.pops.map (·.name) ∧
          (init = none → ∀ p ∈ i0.pops, p.st.items = []) ∧
          (init.isSome = true → i0.phi = Spec.potential cfg D i0.pops) := by
        unfold Spec.Comp.start at h0
        cases init with
        | none =>
          cases h0
          exact ⟨he, rfl, fun _ p hp => by rw [hemp p hp], by simp⟩
        | some gs =>
          simp only at h0
          split at h0
          · cases h0
          · rename_i ps hps
            obtain ⟨r1, r2⟩ := appendGroups_keeps (hinit gs rfl) hn he hps
            unfold Spec.Comp.settle at h0
            split at h0
            · cases h0
              refine ⟨fun q hq => ?_, ?_, by simp, fun _ => ?_⟩
              · obtain ⟨q', hq', rfl⟩ := List.mem_map.1 hq
                exact r1 q' hq'
              · rw [← r2]; simp [Spec.looked, Function.comp_def]
              · simp [Spec.potential, Spec.chargeAt, Spec.looked, Function.comp_def]
            · cases h0
      obtain ⟨s1, s2, s3, s4⟩ := hstart
      have key2 : ∀ (n : Nat) (i0 : Ideal K V α σ) (is : List (Ideal K V α σ)), AllOf P i0.pops →
          (i0.pops.map (·.name)).Nodup → Spec.Comp.steps cfg sl D onMesh n i0 = .ok is →
          (∀ j ∈ is, AllOf P j.pops ∧ j.phi = Spec.potential cfg D j.pops) ∧
          (i0 :: is).IsChain (fun i j => j.count = i.count + 1 ∧ j.time = i.time + cfg.dt ∧
            List.Forall₂ (fun s s' => s'.name = s.name ∧ s'.charge = s.charge ∧ s'.mass = s.mass ∧ s'.index = s.index ∧
              s'.st.items.map key = (if s.charge = 0 then s.st.items.map key
                else (s.st.items.map (F s.name (cfg.fieldOf i.phi))).filter keep) ++
                (Spec.Comp.made cfg sl s.name i).map key) i.pops j.pops) := by
        intro n
        induction n with
        | zero =>
          intro i0 is _ _ e
          cases e
          exact ⟨by simp, by simp⟩
        | succ n ih =>
          intro i0 is a1 a2 e
          simp only [Spec.Comp.steps] at e
          split at e
          · cases e
          · rename_i i1 h1
            split at e
            · cases e
            · rename_i is1 h2
              cases e
              obtain ⟨b1, b2, b3, b4, b5⟩ := step_filter key F keep hk hsrc a2 a1 h1
              obtain ⟨c1, c2⟩ := ih i1 is1 b4 (by rw [forall₂_names b5 (fun _ _ k => k.1)]; exact a2) h2
              refine ⟨?_, List.isChain_cons_cons.2 ⟨⟨b1, b2, b5⟩, c2⟩⟩
              intro j hj
              rcases List.mem_cons.1 hj with rfl | hj
              · exact ⟨b4, b3⟩
              · exact c1 j hj
      obtain ⟨k1, k2⟩ := key2 n i0 is s1 (by rw [s2]; exact hn) hs
      refine ⟨?_, s3, ?_, k2⟩
      · intro j hj
        rcases List.mem_cons.1 hj with rfl | hj
        · exact s1
        · exact (k1 j hj).1
      · intro j hj
        rcases List.mem_append.1 hj with hj | hj
        · split at hj
          · rename_i hi
            rw [List.mem_singleton.1 hj]
            exact s4 hi
          · cases hj
        · exact (k1 j hj).2

end Dt.CppPlasma
