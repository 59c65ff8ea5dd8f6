import Verif.Spec.Pass
import Verif.Model.Mover

/-! # Facts about the specification of a pass -/

namespace Dt
namespace Spec
variable {σ α : Type}

theorem kept_append (a b : List (Entry α)) : kept (a ++ b) = kept a ++ kept b := by
  simp [kept]

theorem pass_logged (adv : Adv σ α) (xs : List α) :
    ∀ (st : σ) (L : List (Entry α)) (i o : Nat),
    match pass adv st i o xs with
    | .error e => pass (logged adv) (st, L) i o xs = .error e
    | .ok (st', ys) => ∃ log, pass (logged adv) (st, L) i o xs = .ok ((st', L ++ log), ys) ∧
        log.length = xs.length ∧ kept log = ys ∧
        ∀ (j : Nat) (hj : j < log.length),
          log[j].iIn = (i + j : Nat) ∧
          log[j].iOut = (o + (kept (log.take j)).length : Nat) ∧
          log[j].indexChange = decide (log[j].iOut ≠ log[j].iIn) ∧
          xs[j]? = some log[j].before := by
  induction xs with
  | nil =>
    intro st L i o
    simp only [pass]
    exact ⟨[], by simp, rfl, rfl, by simp⟩
  | cons x xs ih =>
    intro st L i o
    simp only [pass, logged]
    cases hadv : adv st i o (decide (o ≠ i)) x with
    | error e => rfl
    | ok r =>
      obtain ⟨st1, p', keep⟩ := r
      simp only []
      cases keep with
      | true =>
        simp only []
        have := ih st1 (L ++ [⟨(i : Int), (o : Int), decide (o ≠ i), x, p', true⟩]) (i + 1) (o + 1)
        cases hp : pass adv st1 (i + 1) (o + 1) xs with
        | error e =>
          rw [hp] at this
          simp only [] at this ⊢
          rw [this]
        | ok r =>
          obtain ⟨st', ys⟩ := r
          rw [hp] at this
          simp only [] at this ⊢
          obtain ⟨log, h1, h2, h3, h4⟩ := this
          rw [h1]
          refine ⟨⟨(i : Int), (o : Int), decide (o ≠ i), x, p', true⟩ :: log, by simp, by simp [h2],
            by simp [kept] at h3 ⊢; exact h3, ?_⟩
          intro j hj
          cases j with
          | zero => simp [kept]; omega
          | succ j =>
            have hj' : j < log.length := by simpa using hj
            obtain ⟨k1, k2, k3, k4⟩ := h4 j hj'
            simp only [List.getElem_cons_succ, List.getElem?_cons_succ]
            refine ⟨by rw [k1]; congr 1; omega, ?_, k3, k4⟩
            rw [k2]
            simp [kept]
            omega
      | false =>
        simp only []
        have := ih st1 (L ++ [⟨(i : Int), (o : Int), decide (o ≠ i), x, p', false⟩]) (i + 1) o
        cases hp : pass adv st1 (i + 1) o xs with
        | error e =>
          rw [hp] at this
          simp only [] at this ⊢
          rw [this]
        | ok r =>
          obtain ⟨st', ys⟩ := r
          rw [hp] at this
          simp only [] at this ⊢
          obtain ⟨log, h1, h2, h3, h4⟩ := this
          rw [h1]
          refine ⟨⟨(i : Int), (o : Int), decide (o ≠ i), x, p', false⟩ :: log, by simp, by simp [h2],
            by simp [kept] at h3 ⊢; exact h3, ?_⟩
          intro j hj
          cases j with
          | zero => simp [kept]; omega
          | succ j =>
            have hj' : j < log.length := by simpa using hj
            obtain ⟨k1, k2, k3, k4⟩ := h4 j hj'
            simp only [List.getElem_cons_succ, List.getElem?_cons_succ]
            refine ⟨by rw [k1]; congr 1; omega, ?_, k3, k4⟩
            rw [k2]
            simp [kept]

theorem kept_get (log : List (Entry α)) (j : Nat) (hj : j < log.length) (hk : log[j].keep = true) :
    (kept log)[(kept (log.take j)).length]? = some log[j].after := by
  have h1 : log = log.take j ++ log[j] :: log.drop (j + 1) := by
    conv => lhs; rw [← List.take_append_drop j log, List.drop_eq_getElem_cons hj]
  have h2 : kept log = kept (log.take j) ++ log[j].after :: kept (log.drop (j + 1)) := by
    conv => lhs; rw [h1]
    rw [kept_append]
    congr 1
    simp only [kept]
    rw [List.filter_cons_of_pos (by simpa using hk), List.map_cons]
  rw [h2, List.getElem?_append_right (Nat.le_refl _)]
  simp

/-- What a pass that raises has in common with one that does not: it raises
exactly if the per-particle code raises on some particle, given the state left
by the particles before it. -/
theorem pass_error_iff (adv : Adv σ α) (xs : List α) :
    ∀ (st : σ) (i o : Nat) (e : Err), pass adv st i o xs = .error e ↔
      ∃ (j : Nat) (hj : j < xs.length) (st' : σ) (ys : List α),
        pass adv st i o (xs.take j) = .ok (st', ys) ∧
        adv st' ((i + j : Nat) : Int) ((o + ys.length : Nat) : Int)
          (decide (o + ys.length ≠ i + j)) xs[j] = .error e := by
  induction xs with
  | nil => intro st i o e; simp [pass]
  | cons x xs ih =>
    intro st i o e
    constructor
    · intro h
      simp only [pass] at h
      cases hadv : adv st i o (decide (o ≠ i)) x with
      | error e' =>
        rw [hadv] at h
        simp only [Except.error.injEq] at h
        subst h
        exact ⟨0, by simp, st, [], by simp [pass], by simpa using hadv⟩
      | ok r =>
        obtain ⟨st1, p', keep⟩ := r
        rw [hadv] at h
        cases keep with
        | true =>
          simp only [] at h
          cases hp : pass adv st1 (i + 1) (o + 1) xs with
          | ok r => rw [hp] at h; cases h
          | error e' =>
            rw [hp] at h
            simp only [Except.error.injEq] at h
            subst h
            obtain ⟨j, hj, st', ys, k1, k2⟩ := (ih st1 (i + 1) (o + 1) e').1 hp
            refine ⟨j + 1, by simpa using hj, st', p' :: ys, ?_, ?_⟩
            · simp only [List.take_succ_cons, pass, hadv, k1]
            · have hl : o + (p' :: ys).length = o + 1 + ys.length := by
                simp only [List.length_cons]; omega
              have hi : i + (j + 1) = i + 1 + j := by omega
              simp only [hl, hi, List.getElem_cons_succ]
              exact k2
        | false =>
          simp only [] at h
          obtain ⟨j, hj, st', ys, k1, k2⟩ := (ih st1 (i + 1) o e).1 h
          refine ⟨j + 1, by simpa using hj, st', ys, ?_, ?_⟩
          · simp only [List.take_succ_cons, pass, hadv, k1]
          · simp only [List.getElem_cons_succ]
            rw [show i + (j + 1) = i + 1 + j by omega]
            exact k2
    · rintro ⟨j, hj, st', ys, k1, k2⟩
      simp only [pass]
      cases j with
      | zero =>
        simp only [List.take_zero, pass, Except.ok.injEq, Prod.mk.injEq] at k1
        obtain ⟨rfl, rfl⟩ := k1
        simp only [List.length_nil, Nat.add_zero, List.getElem_cons_zero] at k2
        rw [k2]
      | succ j =>
        simp only [List.take_succ_cons, pass] at k1
        cases hadv : adv st i o (decide (o ≠ i)) x with
        | error e' => rw [hadv] at k1; cases k1
        | ok r =>
          obtain ⟨st1, p', keep⟩ := r
          rw [hadv] at k1
          cases keep with
          | true =>
            simp only [] at k1 ⊢
            cases hp : pass adv st1 (i + 1) (o + 1) (xs.take j) with
            | error e' => rw [hp] at k1; cases k1
            | ok r =>
              obtain ⟨st2, zs⟩ := r
              rw [hp] at k1
              simp only [Except.ok.injEq, Prod.mk.injEq] at k1
              obtain ⟨rfl, rfl⟩ := k1
              have : pass adv st1 (i + 1) (o + 1) xs = .error e := by
                rw [ih]
                refine ⟨j, by simpa using hj, st2, zs, hp, ?_⟩
                have hl : o + (p' :: zs).length = o + 1 + zs.length := by
                  simp only [List.length_cons]; omega
                have hi : i + (j + 1) = i + 1 + j := by omega
                simp only [hl, hi, List.getElem_cons_succ] at k2
                exact k2
              rw [this]
          | false =>
            simp only [] at k1 ⊢
            rw [ih]
            refine ⟨j, by simpa using hj, st', ys, k1, ?_⟩
            simp only [List.getElem_cons_succ] at k2
            rw [show i + 1 + j = i + (j + 1) by omega]
            exact k2

/-- A per-particle advance without side state that does not raise. -/
theorem pass_pure (f : α → α × Bool) (xs : List α) : ∀ (i o : Nat),
    pass (fun (_ : Unit) _ _ _ p => .ok ((), f p)) () i o xs =
      .ok ((), (xs.map f).filterMap (fun r => if r.2 then some r.1 else none)) := by
  induction xs with
  | nil => intros; rfl
  | cons x xs ih =>
    intro i o
    simp only [pass]
    cases h : (f x).2
    · rw [show f x = ((f x).1, false) by rw [← h]]
      simp only []
      rw [ih]
      simp [h]
    · rw [show f x = ((f x).1, true) by rw [← h]]
      simp only []
      rw [ih]
      simp [h]

end Spec
end Dt
