import Verif.Lemmas.Traj
import Verif.Lemmas.PassLog

/-! # Trajectory bookkeeping during a pass -/

namespace Dt
namespace TrajSp
open Spec
variable {δ α T τ : Type} [Add T]

/-- Arguments of the bookkeeping that stay fixed during a pass. -/
structure Cfg (δ α T : Type) where
  np : Nat
  last : Option Int
  step : Int
  time : T
  dt : T
  isTraj : α → Bool
  isDel : α → Bool
  mkCross : Int → T → α → δ
  mkFinal : Int → T → α → δ

/-- `TrajSp.adv` with its fixed arguments bundled. -/
def cadv (c : Cfg δ α T) (core : τ → α → Except Err (τ × α × List (α × T))) :
    Adv (τ × TrajSp δ) α :=
  adv c.np c.last c.step c.time c.dt c.isTraj c.isDel c.mkCross c.mkFinal core

/-- The same pass without trajectories: move the particle, keep it unless it
is flagged for deletion. -/
def coreAdv (c : Cfg δ α T) (core : τ → α → Except Err (τ × α × List (α × T))) : Adv τ α :=
  fun τ0 _ _ _ p =>
    match core τ0 p with
    | .error e => .error e
    | .ok (τ1, p', _) => .ok (τ1, p', !c.isDel p')

/-- The motion keeps the trajectory flag and the identity of a particle. -/
def Keeps {U : Type} (c : Cfg δ α T) (uid : α → U)
    (core : τ → α → Except Err (τ × α × List (α × T))) : Prop :=
  ∀ (τ0 : τ) (p : α) (τ1 : τ) (p' : α) (evs : List (α × T)), core τ0 p = .ok (τ1, p', evs) →
    uid p' = uid p ∧ c.isTraj p' = c.isTraj p ∧ ∀ ev ∈ evs, c.isTraj ev.1 = c.isTraj p

omit [Add T] in
theorem foldlM_events (c : Cfg δ α T) {i : Int} {j : Nat} (evs : List (α × T)) :
    ∀ {t : TrajSp δ}, WF c.np t → indexOf t.idx i = .ok j →
    ∃ t', evs.foldlM (fun t ev =>
        if c.isTraj ev.1 then recordDatum c.np t i (c.mkCross c.step ev.2 ev.1) else .ok t) t
      = .ok t' ∧ WF c.np t' ∧ t'.idx = t.idx ∧
      ∀ k, points t' k = if k = j then
        (evs.filter (fun ev => c.isTraj ev.1)).foldl
          (fun pts ev => addPt c.np pts (c.mkCross c.step ev.2 ev.1)) (points t k)
        else points t k := by
  induction evs with
  | nil => intro t h hj; exact ⟨t, rfl, h, rfl, by simp⟩
  | cons ev evs ih =>
    intro t h hj
    simp only [List.foldlM_cons, bind, Except.bind]
    by_cases hf : c.isTraj ev.1 = true
    · rw [if_pos hf]
      obtain ⟨t1, e1, w, hi, hp⟩ := recordDatum_ok h hj (c.mkCross c.step ev.2 ev.1)
      rw [e1]
      obtain ⟨t', e, w', hi', hp'⟩ := ih w (by rw [hi]; exact hj)
      refine ⟨t', e, w', by rw [hi', hi], ?_⟩
      intro k
      rw [hp' k, hp k]
      by_cases hk : k = j
      · simp [hk, hf]
      · simp [hk]
    · rw [if_neg hf]
      obtain ⟨t', e, w', hi', hp'⟩ := ih h hj
      refine ⟨t', e, w', hi', ?_⟩
      intro k
      rw [hp' k]
      simp [hf]

omit [Add T] in
theorem foldlM_noevents (c : Cfg δ α T) {i : Int} (evs : List (α × T)) (t : TrajSp δ)
    (h : ∀ ev ∈ evs, c.isTraj ev.1 = false) :
    evs.foldlM (fun t ev =>
        if c.isTraj ev.1 then recordDatum c.np t i (c.mkCross c.step ev.2 ev.1) else .ok t) t
      = .ok t := by
  induction evs generalizing t with
  | nil => rfl
  | cons ev evs ih =>
    simp only [List.foldlM_cons, bind, Except.bind]
    rw [if_neg (by rw [h ev (by simp)]; simp)]
    exact ih t (fun ev' he => h ev' (by simp [he]))

/-- Where the particle with identity `u` is in the middle of a pass: among
the particles already stored, or among those still to come (the first of which
has "in" index `i`), or nowhere. -/
def place {U : Type} [DecidableEq U] (done rest : List U) (i : Nat) (u : U) : Int :=
  if u ∈ done then (done.idxOf u : Nat)
  else if u ∈ rest then ((i + rest.idxOf u : Nat) : Int) else -1

/-- Every entry is the place of its owner. -/
def Places {U : Type} [DecidableEq U] (owner : List U) (idx : List Int) (done rest : List U)
    (i : Nat) : Prop :=
  idx = owner.map (place done rest i)

section
variable {U : Type} [DecidableEq U]

theorem place_lookup {owner : List U} {idx : List Int} {done rest : List U} {i : Nat} {u : U}
    (h : Places owner idx done (u :: rest) i) (hdone : done.length ≤ i) (hu : u ∉ done)
    (hnd : owner.Nodup) (hmem : u ∈ owner) :
    ∃ j, indexOf idx i = .ok j ∧ owner[j]? = some u := by
  subst h
  have hmemi : (i : Int) ∈ owner.map (place done (u :: rest) i) := by
    rw [List.mem_map]
    exact ⟨u, hmem, by simp [place, hu]⟩
  obtain ⟨j, hj⟩ := indexOf_mem hmemi
  obtain ⟨k1, k2, -⟩ := indexOf_ok hj
  refine ⟨j, hj, ?_⟩
  rw [List.getElem?_map] at k1
  cases ho : owner[j]? with
  | none => rw [ho] at k1; cases k1
  | some v =>
    rw [ho] at k1
    simp only [Option.map_some, Option.some.injEq] at k1
    unfold place at k1
    split at k1
    · rename_i hv
      have := List.idxOf_lt_length_of_mem hv
      omega
    · split at k1
      · rename_i hv
        have : (u :: rest).idxOf v = 0 := by omega
        rw [List.idxOf_cons] at this
        by_cases huv : u = v
        · rw [huv]
        · rw [show (u == v) = false by simp [huv]] at this
          simp at this
      · omega

theorem nodup_get {owner : List U} (h : owner.Nodup) {j k : Nat} {u : U}
    (hj : owner[j]? = some u) (hk : owner[k]? = some u) : j = k := by
  rw [List.getElem?_eq_some_iff] at hj hk
  obtain ⟨h1, h2⟩ := hj
  obtain ⟨h3, h4⟩ := hk
  have h5 := List.nodup_iff_pairwise_ne.1 h
  rw [List.pairwise_iff_getElem] at h5
  rcases Nat.lt_trichotomy j k with hlt | heq | hgt
  · exact absurd (by rw [h2, h4]) (h5 j k h1 h3 hlt)
  · exact heq
  · exact absurd (by rw [h2, h4]) (h5 k j h3 h1 hgt)

theorem map_set_place {owner : List U} (hnd : owner.Nodup) {f g : U → Int} {j : Nat} {u : U}
    (hj : owner[j]? = some u) (hfg : ∀ v ∈ owner, v ≠ u → g v = f v) :
    (owner.map f).set j (g u) = owner.map g := by
  apply List.ext_getElem?
  intro k
  rw [List.getElem?_set, List.getElem?_map, List.getElem?_map]
  by_cases hk : j = k
  · subst hk
    have : j < owner.length := by
      rw [List.getElem?_eq_some_iff] at hj; exact hj.1
    rw [if_pos rfl, hj, if_pos (by simpa using this)]
    rfl
  · rw [if_neg hk]
    cases ho : owner[k]? with
    | none => rfl
    | some v =>
      simp only [Option.map_some, Option.some.injEq]
      symm
      apply hfg v (List.mem_of_getElem? ho)
      intro hvu
      subst hvu
      exact hk (nodup_get hnd hj ho)

theorem place_kept {done rest : List U} {i : Nat} {u v : U} (hvu : v ≠ u) : place (done ++ [u]) rest (i + 1) v = place done (u :: rest) i v := by
  unfold place
  by_cases h1 : v ∈ done
  · rw [if_pos (by simp [h1]), if_pos h1, List.idxOf_append, if_pos h1]
  · rw [if_neg (by simp [h1, hvu]), if_neg h1]
    by_cases h2 : v ∈ rest
    · rw [if_pos h2, if_pos (by simp [h2]), List.idxOf_cons]
      have : (u == v) = false := by simp [Ne.symm hvu]
      rw [this]
      simp only [cond_false]
      congr 1
      omega
    · rw [if_neg h2, if_neg (by simp [h2, hvu])]

theorem place_dropped {done rest : List U} {i : Nat} {u v : U} (hvu : v ≠ u) : place done rest (i + 1) v = place done (u :: rest) i v := by
  unfold place
  by_cases h1 : v ∈ done
  · rw [if_pos h1, if_pos h1]
  · rw [if_neg h1, if_neg h1]
    by_cases h2 : v ∈ rest
    · rw [if_pos h2, if_pos (by simp [h2]), List.idxOf_cons]
      have : (u == v) = false := by simp [Ne.symm hvu]
      rw [this]
      simp only [cond_false]
      congr 1
      omega
    · rw [if_neg h2, if_neg (by simp [h2, hvu])]

/-- The points of a trajectory only grow. -/
def Grows (t t' : TrajSp δ) : Prop := ∀ j, points t j <+: points t' j

theorem addPt_prefix (np : Nat) (pts : List δ) (d : δ) : pts <+: addPt np pts d := by
  unfold addPt; split
  · exact List.prefix_append _ _
  · exact List.prefix_refl _

theorem Grows.trans {t t' t'' : TrajSp δ} (h : Grows t t') (h' : Grows t' t'') : Grows t t'' :=
  fun j => (h j).trans (h' j)

theorem foldl_addPt_prefix {β : Type} (np : Nat) (f : β → δ) (evs : List β) (pts : List δ) :
    pts <+: evs.foldl (fun pts ev => addPt np pts (f ev)) pts := by
  induction evs generalizing pts with
  | nil => exact List.prefix_refl _
  | cons ev evs ih => exact (addPt_prefix np pts (f ev)).trans (ih _)

theorem pass_follow (c : Cfg δ α T) (uid : α → U)
    (core : τ → α → Except Err (τ × α × List (α × T))) (hk : Keeps c uid core)
    {owner : List U} (hnd : owner.Nodup) (rest : List α) :
    ∀ (done : List α) (i : Nat) (τ0 : τ) (t : TrajSp δ), WF c.np t → done.length ≤ i →
    ((done ++ rest).map uid).Nodup →
    (∀ p ∈ rest, c.isTraj p = true ↔ uid p ∈ owner) →
    Places owner t.idx (done.map uid) (rest.map uid) i →
    match pass (coreAdv c core) τ0 i done.length rest with
    | .error e => pass (cadv c core) (τ0, t) i done.length rest = .error e
    | .ok (τ', zs) => ∃ t', pass (cadv c core) (τ0, t) i done.length rest = .ok ((τ', t'), zs) ∧
        WF c.np t' ∧ Places owner t'.idx ((done ++ zs).map uid) [] (i + rest.length) ∧
        ((done ++ zs).map uid).Nodup ∧ (∀ p ∈ zs, c.isTraj p = true ↔ uid p ∈ owner) ∧
        Grows t t' := by
  induction rest with
  | nil =>
    intro done i τ0 t hw hdone hn hfl hpl
    simp only [pass]
    refine ⟨t, rfl, hw, ?_, by simpa using hn, by simp, fun j => List.prefix_refl _⟩
    simpa using hpl
  | cons p rest ih =>
    intro done i τ0 t hw hdone hn hfl hpl
    have hn' := hn
    simp only [List.map_append, List.map_cons, List.nodup_append, List.nodup_cons, List.mem_cons,
      forall_eq_or_imp] at hn'
    obtain ⟨hn1, ⟨hn2, hn3⟩, hn4⟩ := hn'
    have hudone : uid p ∉ done.map uid := fun h => (hn4 _ h).1 rfl
    simp only [List.map_cons] at hpl
    simp only [pass, coreAdv, cadv, adv]
    cases hcore : core τ0 p with
    | error e => simp only [bind, Except.bind]
    | ok r =>
      obtain ⟨τ1, p', evs⟩ := r
      obtain ⟨hu, hf, hev⟩ := hk τ0 p τ1 p' evs hcore
      simp only [bind, Except.bind, bookDeleted, bookKept]
      have hpo := hfl p (by simp)
      -- the crossing points
      have hevs : ∃ t1, evs.foldlM (fun t ev =>
          if c.isTraj ev.1 then recordDatum c.np t i (c.mkCross c.step ev.2 ev.1) else .ok t) t
            = .ok t1 ∧ WF c.np t1 ∧ t1.idx = t.idx ∧ Grows t t1 := by
        by_cases hft : c.isTraj p = true
        · obtain ⟨j, hj, -⟩ := place_lookup hpl (by simpa using hdone) hudone hnd (hpo.1 hft)
          obtain ⟨t1, e1, w1, hi1, hp1⟩ := foldlM_events c evs hw hj
          refine ⟨t1, e1, w1, hi1, ?_⟩
          intro k
          rw [hp1 k]
          split
          · exact foldl_addPt_prefix _ _ _ _
          · exact List.prefix_refl _
        · refine ⟨t, foldlM_noevents c evs t ?_, hw, rfl, fun j => List.prefix_refl _⟩
          intro ev he
          rw [hev ev he]
          simpa using hft
      obtain ⟨t1, e1, w1, hi1, hg1⟩ := hevs
      rw [e1]
      simp only []
      cases hdel : c.isDel p' with
      | true =>
        simp only [if_true, Bool.not_true]
        -- deleted
        have hrem : ∃ t2, (if c.isTraj p = true then
              remove c.np c.last t1 (i : Int) c.step c.time c.dt (fun s ft => c.mkFinal s ft p')
            else .ok t1) = .ok t2 ∧ WF c.np t2 ∧
            Places owner t2.idx (done.map uid) (rest.map uid) (i + 1) ∧ Grows t t2 := by
          by_cases hft : c.isTraj p = true
          · rw [if_pos hft]
            obtain ⟨j, hj, hoj⟩ := place_lookup hpl (by simpa using hdone) hudone hnd (hpo.1 hft)
            obtain ⟨t2, e2, w2, hi2, hp2⟩ := remove_ok w1 (by rw [hi1]; exact hj) c.last c.step
              c.time c.dt (fun s ft => c.mkFinal s ft p')
            refine ⟨t2, e2, w2, ?_, ?_⟩
            · unfold Places at hpl ⊢
              rw [hi2, hi1, hpl]
              have hg : place (done.map uid) (rest.map uid) (i + 1) (uid p) = -1 := by
                unfold place
                rw [if_neg hudone, if_neg hn2]
              rw [← hg]
              exact map_set_place hnd hoj (fun v _ hvu => place_dropped hvu)
            · refine hg1.trans (fun k => ?_)
              rw [hp2 k]
              split
              · exact addPt_prefix _ _ _
              · exact List.prefix_refl _
          · rw [if_neg hft]
            refine ⟨t1, rfl, w1, ?_, hg1⟩
            unfold Places at hpl ⊢
            rw [hi1, hpl]
            apply List.map_congr_left
            intro v hv
            symm
            apply place_dropped
            intro hvu
            subst hvu
            exact hft (hpo.2 hv)
        obtain ⟨t2, e2, w2, hp2, hg2⟩ := hrem
        rw [e2]
        simp only [pure, Except.pure]
        have hih := ih done (i + 1) τ1 t2 w2 (by omega) (by
            simp only [List.map_append, List.nodup_append]
            exact ⟨hn1, hn3, fun a ha b hb => (hn4 a ha).2 b hb⟩)
          (fun q hq => hfl q (by simp [hq])) hp2
        cases hps : pass (coreAdv c core) τ1 (i + 1) done.length rest with
        | error e => rw [hps] at hih; exact hih
        | ok r =>
          rw [hps] at hih
          obtain ⟨t', e', w', hpl', hn', hfl', hg'⟩ := hih
          refine ⟨t', e', w', ?_, hn', hfl', hg2.trans hg'⟩
          rw [List.length_cons, show i + (rest.length + 1) = i + 1 + rest.length by omega]
          exact hpl'
      | false =>
        simp only [Bool.false_eq_true, if_false, Bool.not_false]
        have hud' : uid p' = uid p := hu
        -- kept
        have hupd : ∃ t2, (if (c.isTraj p' && decide (done.length ≠ i)) = true then
              update t1 (i : Int) (done.length : Int) else .ok t1) = .ok t2 ∧ WF c.np t2 ∧
            Places owner t2.idx ((done ++ [p']).map uid) (rest.map uid) (i + 1) ∧ Grows t t2 := by
          have hplace : place ((done ++ [p']).map uid) (rest.map uid) (i + 1) (uid p) =
              (done.length : Int) := by
            unfold place
            rw [if_pos (by simp [hud']), List.map_append, List.idxOf_append, if_neg hudone]
            simp [hud']
          by_cases hcond : (c.isTraj p' && decide (done.length ≠ i)) = true
          · rw [if_pos hcond]
            rw [Bool.and_eq_true] at hcond
            have hft : c.isTraj p = true := by rw [← hf]; exact hcond.1
            obtain ⟨j, hj, hoj⟩ := place_lookup hpl (by simpa using hdone) hudone hnd (hpo.1 hft)
            obtain ⟨t2, e2, w2, hi2, hp2⟩ := update_ok (o := (done.length : Int)) w1
              (by rw [hi1]; exact hj)
            refine ⟨t2, e2, w2, ?_, ?_⟩
            · unfold Places at hpl ⊢
              rw [hi2, hi1, hpl, ← hplace]
              apply map_set_place hnd hoj
              intro v _ hvu
              rw [List.map_append, List.map_cons, List.map_nil, hud']
              exact place_kept hvu
            · refine hg1.trans (fun k => ?_)
              rw [hp2 k]
              exact List.prefix_refl _
          · rw [if_neg hcond]
            refine ⟨t1, rfl, w1, ?_, hg1⟩
            unfold Places at hpl ⊢
            rw [hi1, hpl]
            apply List.map_congr_left
            intro v hv
            by_cases hvu : v = uid p
            · subst hvu
              have hft := hpo.2 hv
              have hdi : done.length = i := by
                rw [hf, hft] at hcond
                simpa using hcond
              rw [hplace]
              unfold place
              rw [if_neg hudone, if_pos (by simp), hdi]
              simp
            · rw [List.map_append, List.map_cons, List.map_nil, hud']
              exact (place_kept hvu).symm
        obtain ⟨t2, e2, w2, hp2, hg2⟩ := hupd
        rw [e2]
        simp only [pure, Except.pure]
        have hlen : (done ++ [p']).length = done.length + 1 := by simp
        have hih := ih (done ++ [p']) (i + 1) τ1 t2 w2 (by rw [hlen]; omega) (by
            simp only [List.map_append, List.map_cons, List.map_nil, List.append_assoc,
              List.cons_append, List.nil_append, hud']
            simpa using hn)
          (fun q hq => hfl q (by simp [hq])) hp2
        rw [hlen] at hih
        cases hps : pass (coreAdv c core) τ1 (i + 1) (done.length + 1) rest with
        | error e =>
          rw [hps] at hih
          simp only [] at hih ⊢
          unfold cadv at hih
          rw [hih]
        | ok r =>
          obtain ⟨τ2, zs⟩ := r
          rw [hps] at hih
          simp only [] at hih ⊢
          obtain ⟨t', e', w', hpl', hn', hfl', hg'⟩ := hih
          unfold cadv at e'
          rw [e']
          refine ⟨t', rfl, w', ?_, by simpa using hn', ?_, hg2.trans hg'⟩
          · rw [List.length_cons, show i + (rest.length + 1) = i + 1 + rest.length by omega]
            simpa using hpl'
          · intro q hq
            rcases List.mem_cons.1 hq with rfl | hq
            · rw [hf, hud']; exact hpo
            · exact hfl' q hq

end
end TrajSp
end Dt
