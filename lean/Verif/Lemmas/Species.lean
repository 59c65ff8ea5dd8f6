import Verif.Lemmas.MapLoop
import Verif.Spec.Species
import Mathlib.Tactic.Ring
import Mathlib.Tactic.Linarith
import Mathlib.Algebra.BigOperators.Ring.List

/-! # Lemmas about species tables, sums, cell indices and histories -/

set_option linter.unusedSectionVars false

namespace Dt
namespace Species
open SAP (Reachable)
variable {K : Type} [Field K] {α : Type}

/-! ### Tables -/

theorem initFold [DecidableEq K] (defs : List (Def K)) (r : Registry K)
    (h : ∀ d ∈ defs, d.mass ≠ 0) :
    defs.foldlM addSpecies r = .ok { r with
      charge := (defs.map (fun d => (d.name, d.charge))).reverse ++ r.charge
      mass := (defs.map (fun d => (d.name, d.mass))).reverse ++ r.mass
      qom := (defs.map (fun d => (d.name, d.charge / d.mass))).reverse ++ r.qom
      charged := r.charged ++ (defs.filter (fun d => d.charge ≠ 0)).map Def.name
      neutral := r.neutral ++ (defs.filter (fun d => d.charge = 0)).map Def.name } := by
  induction defs generalizing r with
  | nil => simp [pure, Except.pure]
  | cons d ds ih =>
    rw [List.foldlM_cons]
    have hm : d.mass ≠ 0 := h d (by simp)
    simp only [addSpecies, hm, if_false, bind, Except.bind]
    rw [ih _ (fun e he => h e (List.mem_cons_of_mem _ he))]
    by_cases hc : d.charge = 0 <;> simp [hc, Dict.put]

theorem initFold_error [DecidableEq K] (defs : List (Def K)) (r : Registry K)
    (h : ∃ d ∈ defs, d.mass = 0) : defs.foldlM addSpecies r = .error .zerodiv := by
  induction defs generalizing r with
  | nil => obtain ⟨d, hd, _⟩ := h; simp at hd
  | cons d ds ih =>
    rw [List.foldlM_cons]
    by_cases hm : d.mass = 0
    · simp [addSpecies, hm, bind, Except.bind]
    · simp only [addSpecies, hm, if_false, bind, Except.bind]
      apply ih
      obtain ⟨e, he, h0⟩ := h
      rcases List.mem_cons.1 he with rfl | he
      · exact absurd h0 hm
      · exact ⟨e, he, h0⟩

theorem numberSpecies_eq (names : List String) (i : Nat) (d : Dict Nat) :
    numberSpecies names i d = (names.zipIdx (i + 1)).reverse ++ d := by
  induction names generalizing i d with
  | nil => rfl
  | cons n ns ih => simp [numberSpecies, ih, Dict.put]

theorem lookup_append_none {V : Type} (k : String) (a b : List (String × V))
    (h : ∀ q ∈ a, q.1 ≠ k) : List.lookup k (a ++ b) = List.lookup k b := by
  induction a with
  | nil => rfl
  | cons q a ih =>
    have h1 : q.1 ≠ k := h q (by simp)
    rw [List.cons_append, List.lookup_cons]
    have : (k == q.1) = false := by simpa using fun hc => h1 hc.symm
    rw [this]
    exact ih (fun q' hq' => h q' (List.mem_cons_of_mem _ hq'))

theorem lookup_append_some {V : Type} (k : String) (a b : List (String × V)) (v : V)
    (h : List.lookup k a = some v) : List.lookup k (a ++ b) = some v := by
  induction a with
  | nil => simp at h
  | cons q a ih =>
    rw [List.cons_append, List.lookup_cons]
    rw [List.lookup_cons] at h
    split <;> rename_i hq
    · rw [hq] at h; exact h
    · rw [hq] at h; exact ih h

/-- With distinct keys the order in which a table was filled does not matter. -/
theorem lookup_reverse {V : Type} (l : List (String × V)) (hn : (l.map (·.1)).Nodup) {k : String}
    {v : V} (h : (k, v) ∈ l) : List.lookup k l.reverse = some v := by
  induction l with
  | nil => simp at h
  | cons q l ih =>
    rw [List.reverse_cons]
    rw [List.map_cons, List.nodup_cons] at hn
    rcases List.mem_cons.1 h with h1 | h1
    · subst h1
      rw [lookup_append_none]
      · simp [List.lookup_cons]
      · intro q hq hk
        apply hn.1
        rw [List.mem_map]
        exact ⟨q, List.mem_reverse.1 hq, hk⟩
    · exact lookup_append_some _ _ _ _ (ih hn.2 h1)

theorem zipIdx_fst (names : List String) (i : Nat) : (names.zipIdx i).map (·.1) = names := by
  simp [List.zipIdx_map_fst]

/-! ### Sums -/

theorem foldlM_ok {σ β : Type} (g : σ → β → σ) (xs : List β) (st : σ) :
    xs.foldlM (fun s x => (.ok (g s x) : Except Err σ)) st = .ok (xs.foldl g st) := by
  induction xs generalizing st with
  | nil => rfl
  | cons x xs ih => simp only [List.foldlM_cons, bind, Except.bind, List.foldl_cons]; exact ih _

theorem foldl_sum_pieces (f : α → K) (ps : List (List α)) (acc : K) :
    ps.foldl (fun a p => a + (p.map f).sum) acc = acc + (ps.flatten.map f).sum := by
  induction ps generalizing acc with
  | nil => simp
  | cons p ps ih => simp only [List.foldl_cons, ih, List.flatten_cons, List.map_append,
      List.sum_append]; ring

theorem foldl_vel (w : α → K) (vel : List (α → K)) (ps : List α) (acc : K) :
    vel.foldl (fun acc u => acc + (ps.map (fun p => w p * u p ^ 2)).sum) acc =
      acc + (ps.map (fun p => w p * Spec.speed2 vel p)).sum := by
  induction vel generalizing acc with
  | nil => simp [Spec.speed2]
  | cons u vel ih =>
    rw [List.foldl_cons, ih]
    have : (ps.map (fun p => w p * Spec.speed2 (u :: vel) p)).sum =
        (ps.map (fun p => w p * u p ^ 2)).sum + (ps.map (fun p => w p * Spec.speed2 vel p)).sum := by
      rw [← List.sum_map_add]
      congr 1
      apply List.map_congr_left
      intro p _
      simp only [Spec.speed2, List.map_cons, List.sum_cons]
      ring
    rw [this]; ring

theorem number_pieces (w : α → K) {s s' : SAP α} {ps : List (List α)}
    (h : s.readLoop = .ok (s', ps)) :
    getSpeciesNumber w s = .ok (s', Spec.number w ps.flatten) := by
  unfold getSpeciesNumber
  rw [SAP.outLoop_read _ _ h, foldlM_ok, foldl_sum_pieces]
  simp [Except.map, Spec.number]

theorem kinetic_eq (w : α → K) (vel : List (α → K)) (m : K) (xs : List α) :
    (xs.map (fun p => w p * Spec.speed2 vel p)).sum * (1 / 2 * m) = Spec.kinetic w vel m xs := by
  unfold Spec.kinetic
  rw [← List.sum_map_mul_right]
  congr 1
  apply List.map_congr_left
  intro p _
  ring

theorem KE_pieces (w : α → K) (vel : List (α → K)) (m : K) {s s' : SAP α} {ps : List (List α)}
    (h : s.readLoop = .ok (s', ps)) :
    getSpeciesKE w vel m s = .ok (s', Spec.kinetic w vel m ps.flatten) := by
  unfold getSpeciesKE
  have : (fun (acc : K) (ps : List α) => (.ok (vel.foldl
      (fun acc u => acc + (ps.map (fun p => w p * u p ^ 2)).sum) acc) : Except Err K)) =
      fun acc ps => .ok (acc + (ps.map (fun p => w p * Spec.speed2 vel p)).sum) := by
    funext acc ps
    rw [foldl_vel]
  rw [this, SAP.outLoop_read _ _ h, foldlM_ok, foldl_sum_pieces]
  simp only [Except.map, bind, Except.bind, pure, Except.pure, zero_add, kinetic_eq]

theorem readLoop_stores {s : SAP α} (hr : Reachable s) {xs : List α} (hx : Spec.Stores s xs) :
    ∃ c ps, s.readLoop = .ok (s.withCur c, ps) ∧ ps.flatten = xs := by
  have inv := SAP.reachable_inv hr
  rw [(SAP.stores_iff inv xs).1 hx]
  refine ⟨_, _, SAP.readLoop_ok inv.out, ?_⟩
  exact Spec.chunk_flatten inv.out.pos _

theorem stores_withCur {s : SAP α} (hr : Reachable s) {xs : List α} (hx : Spec.Stores s xs)
    (c : Int) : Spec.Stores (s.withCur c) xs := by
  have inv := SAP.reachable_inv hr
  rw [SAP.stores_iff (SAP.withCur_inv inv c), SAP.withCur_contents]
  exact (SAP.stores_iff inv xs).1 hx

/-! ### Loops stay in the reachable states -/

theorem outLoop_reachable {σ : Type} (body : SAP α → View → Int → σ → Except Err (SAP α × σ))
    (hb : ∀ {s s' : SAP α} {v : View} {n : Int} {st st' : σ}, Reachable s →
      body s v n st = .ok (s', st') → Reachable s')
    {s s' : SAP α} {st st' : σ} (hr : Reachable s) (e : s.outLoop body st = .ok (s', st')) :
    Reachable s' := by
  have aux : ∀ (fuel : Nat) (s s' : SAP α) (n : Int) (v : Option View) (st st' : σ), Reachable s →
      SAP.outLoopAux body fuel s n v st = .ok (s', st') → Reachable s' := by
    intro fuel
    induction fuel with
    | zero =>
      intro s s' n v st st' hr e
      cases v with
      | none => simp only [SAP.outLoopAux, Except.ok.injEq, Prod.mk.injEq] at e; exact e.1 ▸ hr
      | some v => simp [SAP.outLoopAux] at e
    | succ fuel ih =>
      intro s s' n v st st' hr e
      cases v with
      | none => simp only [SAP.outLoopAux, Except.ok.injEq, Prod.mk.injEq] at e; exact e.1 ▸ hr
      | some v =>
        simp only [SAP.outLoopAux, bind, Except.bind] at e
        split at e
        · cases e
        · rename_i q hq
          exact ih _ _ _ _ _ _ (Reachable.next .Out (hb hr hq)) e
  exact aux _ _ _ _ _ _ _ (Reachable.initOut hr) e

theorem readBody_reachable {σ : Type} (f : σ → List α → Except Err σ)
    {s s' : SAP α} {v : View} {n : Int} {st st' : σ} (hr : Reachable s)
    (e : SAP.readBody f s v n st = .ok (s', st')) : Reachable s' := by
  simp only [SAP.readBody, bind, Except.bind, pure, Except.pure] at e
  split at e
  · cases e
  · split at e
    · cases e
    · simp only [Except.ok.injEq, Prod.mk.injEq] at e
      exact e.1 ▸ hr

variable {locate : α → Int} {inside : α → Except Err Bool} {setCell : α → Int → α}

theorem indexItems_reachable (v : View) (k ip : Nat) {s s' : SAP α} (hr : Reachable s)
    (e : indexItems locate inside setCell v k ip s = .ok s') : Reachable s' := by
  induction k generalizing ip s with
  | zero => simp only [indexItems, Except.ok.injEq] at e; exact e ▸ hr
  | succ k ih =>
    simp only [indexItems, bind, Except.bind] at e
    split at e
    · cases e
    · split at e
      · cases e
      · rename_i _ _ _ _ hq
        split at e
        · cases e
        · split at e
          · exact ih _ (Reachable.viewSet hr hq) e
          · cases e

theorem indexSpecies_reachable {s s' : SAP α} (hr : Reachable s)
    (e : indexSpecies locate inside setCell s = .ok s') : Reachable s' := by
  unfold indexSpecies at e
  change (do let r ← SAP.outLoop (indexBody locate inside setCell) s (); pure r.1) = _ at e
  simp only [bind, Except.bind, pure, Except.pure] at e
  split at e
  · cases e
  · rename_i q hq
    simp only [Except.ok.injEq] at e
    subst e
    refine outLoop_reachable (indexBody locate inside setCell) ?_ hr (s' := q.1) (st' := q.2) hq
    intro s s' v n st st' hr e
    simp only [indexBody, bind, Except.bind, pure, Except.pure] at e
    split at e
    · cases e
    · rename_i hq
      simp only [Except.ok.injEq, Prod.mk.injEq] at e
      exact e.1 ▸ indexItems_reachable _ _ _ hr hq

/-! ### Histories -/

/-- The value of a history quantity of a population. -/
theorem number_reachable (w : α → K) {s s' : SAP α} {n : K} (hr : Reachable s)
    (e : getSpeciesNumber w s = .ok (s', n)) : Reachable s' :=
  outLoop_reachable _ (readBody_reachable _) hr e

theorem KE_reachable (w : α → K) (vel : List (α → K)) (m : K) {s s' : SAP α} {n : K}
    (hr : Reachable s) (e : getSpeciesKE w vel m s = .ok (s', n)) : Reachable s' := by
  simp only [getSpeciesKE, bind, Except.bind, pure, Except.pure] at e
  split at e
  · cases e
  · rename_i q hq
    simp only [Except.ok.injEq, Prod.mk.injEq] at e
    exact e.1 ▸ outLoop_reachable _ (readBody_reachable _) hr (s' := q.1) (st' := q.2) hq

end Species
end Dt
