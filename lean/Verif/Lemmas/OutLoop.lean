import Verif.Model.OutLoop
import Verif.Spec.Stores
import Verif.Lemmas.SAPReach

namespace Dt
namespace SAP
variable {σ α : Type}

theorem outLoopAux_read (f : σ → List α → Except Err σ) (fuel : Nat) (s : SAP α) (n : Int)
    (v : Option View) (st : σ) {s' : SAP α} {ps : List (List α)}
    (h : readPieces fuel s n v = .ok (s', ps)) :
    outLoopAux (readBody f) fuel s n v st = (ps.foldlM f st).map (fun r => (s', r)) := by
  induction fuel generalizing s n v st s' ps with
  | zero =>
    cases v with
    | none => simp only [readPieces, Except.ok.injEq, Prod.mk.injEq] at h
              obtain ⟨rfl, rfl⟩ := h; rfl
    | some v => simp [readPieces] at h
  | succ k ih =>
    cases v with
    | none => simp only [readPieces, Except.ok.injEq, Prod.mk.injEq] at h
              obtain ⟨rfl, rfl⟩ := h; rfl
    | some v =>
      simp only [readPieces, bind, Except.bind, pure, Except.pure] at h
      split at h
      · cases h
      · rename_i piece hp
        split at h
        · cases h
        · rename_i q hq
          obtain ⟨s2, rest⟩ := q
          simp only [Except.ok.injEq, Prod.mk.injEq] at h
          obtain ⟨rfl, rfl⟩ := h
          simp only [outLoopAux, readBody, hp, bind, Except.bind, pure, Except.pure,
            List.foldlM_cons]
          cases f st piece with
          | error e => rfl
          | ok st' =>
            simp only
            exact ih _ _ _ _ hq

theorem outLoop_read {s : SAP α} (f : σ → List α → Except Err σ) (st : σ)
    {s' : SAP α} {ps : List (List α)} (h : s.readLoop = .ok (s', ps)) :
    s.outLoop (readBody f) st = (ps.foldlM f st).map (fun r => (s', r)) :=
  outLoopAux_read f _ _ _ _ _ h

/-- Folding over pieces, where the body folds over the piece, is folding over the items. -/
theorem foldlM_pieces (g : σ → α → Except Err σ) (ps : List (List α)) (st : σ) :
    ps.foldlM (fun st p => p.foldlM g st) st = ps.flatten.foldlM g st := by
  induction ps generalizing st with
  | nil => rfl
  | cons p ps ih =>
    rw [List.flatten_cons, List.foldlM_append, List.foldlM_cons]
    congr 1
    funext a
    exact ih a

theorem stores_contents {s : SAP α} (h : s.Inv) : Spec.Stores s s.contents :=
  ⟨(contents_length h).symm, fun _ hi => getItem_ok h hi⟩

theorem stores_iff {s : SAP α} (h : s.Inv) (xs : List α) : Spec.Stores s xs ↔ xs = s.contents := by
  constructor
  · rintro ⟨h1, h2⟩
    have hl := contents_length h
    apply List.ext_getElem
    · omega
    · intro i hi hi'
      have e1 := h2 i hi
      have e2 := getItem_ok h hi'
      rw [e1] at e2
      exact Except.ok.inj e2
  · rintro rfl; exact stores_contents h

theorem outLoop_read_stores {s : SAP α} (hr : Reachable s) {xs : List α} (hx : Spec.Stores s xs)
    (f : σ → List α → Except Err σ) (st : σ) :
    ∃ c, s.outLoop (readBody f) st =
      ((Spec.chunk s.sl xs).foldlM f st).map (fun r => (s.withCur c, r)) := by
  have inv := reachable_inv hr
  rw [(stores_iff inv xs).1 hx]
  exact ⟨_, outLoop_read f st (readLoop_ok inv.out)⟩

/-- A read loop leaves a reachable container holding the same particles. -/
theorem outLoop_frame {s s' : SAP α} (hr : Reachable s) {xs : List α} (hx : Spec.Stores s xs)
    (f : σ → List α → Except Err σ) {st st' : σ}
    (e : s.outLoop (readBody f) st = .ok (s', st')) :
    ∃ c, s' = s.withCur c := by
  obtain ⟨c, hc⟩ := outLoop_read_stores hr hx f st
  rw [hc] at e
  cases hq : (Spec.chunk s.sl xs).foldlM f st with
  | error _ => rw [hq] at e; simp [Except.map] at e
  | ok r =>
    rw [hq] at e
    simp only [Except.map, Except.ok.injEq, Prod.mk.injEq] at e
    exact ⟨c, e.1.symm⟩

end SAP
end Dt
