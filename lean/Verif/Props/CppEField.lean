import Verif.Lemmas.CppEField
import Verif.Spec.CppEField
import Verif.Props.EField
import Verif.Props.CppTrack

/-!
# The field applied by the compiled movers (C67)
-/

set_option linter.unusedSectionVars false

namespace Dt
open SAP Spec CppMover CppEField
open EField (Fields Switch Evaluable)
open Mover (advI)

section
variable {K : Type} [Field K] [DecidableEq K] {p : Nat} {σ ρ : Type}

/-- The per-particle code of the compiled mover: the kick with factor `qmdt`, then `core`, which
is told how the field columns of a crossing record are obtained. -/
def cppKicked (qmdt : K)
    (core : (Vec K p × Vec K p → Except Err (Vec K p × Vec K p)) → Adv σ (Part K p ρ))
    (f : CppEField.FieldAt K p) : Adv σ (Part K p ρ) :=
  fun st iIn iOut ch q => core f.cross st iIn iOut ch (cppAccel qmdt f.kick q)

/-- The pass depends only on what the per-particle code does at the indices of the list. -/
theorem pass_congr_idx {σ α : Type} (xs : List α) (adv1 adv2 : Adv σ α) :
    ∀ (st : σ) (i o : Nat), (∀ st' (j : Nat) (o' : Int) ic x, i ≤ j → j < i + xs.length →
      adv1 st' (j : Int) o' ic x = adv2 st' (j : Int) o' ic x) →
    pass adv1 st i o xs = pass adv2 st i o xs := by
  induction xs with
  | nil => intro st i o _; rfl
  | cons x xs ih =>
    intro st i o h
    simp only [List.length_cons] at h
    simp only [pass]
    rw [h st i o _ x (le_refl _) (by omega)]
    cases adv2 st (i : Int) (o : Int) (decide (o ≠ i)) x with
    | error e => rfl
    | ok r =>
      obtain ⟨st', p', keep⟩ := r
      have h2 : ∀ o2 : Nat, pass adv1 st' (i + 1) o2 xs = pass adv2 st' (i + 1) o2 xs :=
        fun o2 => ih st' (i + 1) o2 (fun st'' j o' ic y h1 h2 => h st'' j o' ic y (by omega) (by omega))
      cases keep <;> simp only [h2]

/-- What the compiled mover does with the fields it is given, whatever `negE` holds. -/
theorem cppCharged_applied (fl : Fields K p (Part K p ρ)) (qmdt : K)
    (core : (Vec K p × Vec K p → Except Err (Vec K p × Vec K p)) → Adv σ (Part K p ρ))
    {s : CSAP (Part K p ρ)} (hu : Used s) {xs : List (Part K p ρ)} (hx : CStores s xs)
    (hne : xs ≠ []) (hbig : xs.length < 4294967296) {sOn : Bool}
    (hs : fl.neg.isSome = true → CppEField.isOn fl.solvedSw fl.species = sOn)
    (hb : ¬ (fl.neg.isSome = true ∧ sOn = false ∧ fl.ext.isSome = true ∧
      CppEField.isOn fl.extSw fl.species = true))
    (hev : ∀ q ∈ xs, Evaluable fl.neg sOn q)
    (scr : EField.Scratch K p) (hscr : CppEField.ScratchOk s.sl scr) (st : σ) :
    ∃ (e : Nat → Vec K p) (scr' : EField.Scratch K p), CppEField.ScratchOk s.sl scr' ∧
      (∀ (i : Nat) (hi : i < xs.length), IsSolved fl.neg sOn xs[i] (e i)) ∧
      match pass (fun st iIn iOut ch q =>
          core (compiledCrossing (fl.neg.isSome = true ∧ sOn = false) (e iIn.toNat))
            st iIn iOut ch { q with u := q.u + qmdt • e iIn.toNat }) st 0 0 xs with
      | .error err => cppChargedPass fl (cppKicked qmdt core) s scr st = .error err
      | .ok (st', ys) => ∃ s', cppChargedPass fl (cppKicked qmdt core) s scr st =
            .ok (s', scr', st') ∧ CStores s' ys ∧ Used s' := by
  obtain ⟨hi, hsl⟩ := used_inv hu
  have hxc : xs = s.py.contents := (cstores_iff hi xs).1 hx
  obtain ⟨all, ⟨scr', ptr⟩, h1, ⟨h2, -⟩, h3⟩ := cppPass_sim (CppEField.prepare_ok fl hs hb s.sl)
    (cppKicked qmdt core) hi (by rw [← hxc]; exact hne) (fun _ _ _ _ => trivial)
    (by rw [← hxc]; exact hev) (scr, .null) ⟨hscr, fun _ => rfl⟩ st
  rw [← hxc, List.forall₂_iff_get] at h1
  obtain ⟨hl, hg⟩ := h1
  have hg' : ∀ i : Nat, ∃ e : Vec K p, ∀ (h : i < xs.length) (h' : i < all.length),
      IsSolved fl.neg sOn xs[i] e ∧
      (all[i]).kick = (if fl.neg.isSome = true ∧ sOn = false then none else some e) ∧
      (all[i]).ext = 0 := by
    intro i
    by_cases h : i < xs.length
    · obtain ⟨e, h4⟩ := hg i h (by omega)
      exact ⟨e, fun _ _ => h4⟩
    · exact ⟨0, fun h' => absurd h' h⟩
  choose e hex using hg'
  refine ⟨e, scr', h2, fun i hi => (hex i hi (by omega)).1, ?_⟩
  have hpass := C65_pass_refines_list (fun _ => false) (advI all (cppKicked qmdt core)) hu hx hne
    hbig st
  have hsk : ∀ adv : Adv σ (Part K p ρ), skipping (fun _ => false) adv = adv := by
    intro adv; funext st i o ic x; simp [skipping]
  rw [hsk] at hpass
  have hsame : ∀ (k : Nat) (st : σ) (o : Nat), k ≤ xs.length →
      pass (advI all (cppKicked qmdt core)) st (xs.length - k) o (xs.drop (xs.length - k)) =
      pass (fun st iIn iOut ch q =>
          core (compiledCrossing (fl.neg.isSome = true ∧ sOn = false) (e iIn.toNat))
            st iIn iOut ch { q with u := q.u + qmdt • e iIn.toNat }) st
        (xs.length - k) o (xs.drop (xs.length - k)) := by
    intro k
    induction k with
    | zero => intro st o _; simp [pass]
    | succ k ih =>
      intro st o hk
      have hlt : xs.length - (k + 1) < xs.length := by omega
      rw [List.drop_eq_getElem_cons hlt]
      obtain ⟨e1, e2, e3⟩ := hex _ hlt (by omega)
      have hadv : ∀ ch, advI all (cppKicked qmdt core) st ((xs.length - (k + 1) : Nat) : Int)
            (o : Int) ch xs[xs.length - (k + 1)] =
          core (compiledCrossing (fl.neg.isSome = true ∧ sOn = false) (e (xs.length - (k + 1))))
            st ((xs.length - (k + 1) : Nat) : Int) (o : Int) ch
            { xs[xs.length - (k + 1)] with u := xs[xs.length - (k + 1)].u +
              (qmdt • (e (xs.length - (k + 1)))) } := by
        intro ch
        unfold advI cppKicked
        rw [pyGet_of_lt (by omega : xs.length - (k + 1) < all.length)]
        simp only [bind, Except.bind, e2]
        have hcross : (all[xs.length - (k + 1)]'(by omega)).cross =
            compiledCrossing (fl.neg.isSome = true ∧ sOn = false) (e (xs.length - (k + 1))) := by
          funext held
          unfold CppEField.FieldAt.cross compiledCrossing
          rw [e2]
          by_cases hoff : fl.neg.isSome = true ∧ sOn = false
          · rw [if_pos hoff, if_pos hoff]
          · rw [if_neg hoff, if_neg hoff]
            simp only [e3]
            rfl
        rw [hcross]
        congr 1
        by_cases hoff : fl.neg.isSome = true ∧ sOn = false
        · rw [if_pos hoff]
          have he0 : e (xs.length - (k + 1)) = 0 := by
            obtain ⟨F, hF⟩ := Option.isSome_iff_exists.1 hoff.1
            rw [hF, hoff.2] at e1
            simpa [IsSolved] using e1
          rw [he0]
          have hz : qmdt • (0 : Vec K p) = 0 := by funext i; simp
          rw [hz, add_zero]
          rfl
        · rw [if_neg hoff]
          rfl
      have e5 : xs.length - (k + 1) + 1 = xs.length - k := by omega
      simp only [pass, hadv, Int.toNat_natCast, e5]
      have ih' := fun st o => ih st o (by omega)
      simp only [ih']
  have hs0 := hsame xs.length st 0 (le_refl _)
  rw [Nat.sub_self, List.drop_zero] at hs0
  rw [hs0] at hpass
  unfold cppChargedPass
  simp only [bind, Except.bind, pure, Except.pure, h3]
  revert hpass
  cases pass (fun st iIn iOut ch q =>
          core (compiledCrossing (fl.neg.isSome = true ∧ sOn = false) (e iIn.toNat))
            st iIn iOut ch { q with u := q.u + qmdt • e iIn.toNat }) st 0 0 xs with
  | error err => intro h; simp only at h ⊢; rw [h]; rfl
  | ok r =>
    intro h
    obtain ⟨s', h4, h5, h6⟩ := h
    refine ⟨s', ?_, h5, h6⟩
    rw [h4]; rfl

/-- **C67**: with a solved field and no external field, a step of a charged species with the
compiled movers is the pass over the list of its particles in which particle `i` is given the
velocity `u + qmdt e`, where `e` is the value of the solved field at the particle if it is enabled
for the species and zero otherwise, whatever the scratch array contains.  A crossing record gets the
first component of the field.

Partial: no solved field, or an external field, is an error (`C67_false_no_solved_field`,
`C67_false_external`); `accel_only` is ignored (`C67_false_accel_only`); a species missing in the
switch dictionary counts as disabled (`C67_false_missing_name`); the other components of a crossing
record are not written (`C67_false_second_component`). -/
theorem C67_applied_field_partial (fl : Fields K p (Part K p ρ)) (accelOnly : Bool) (qmdt : K)
    (core : (Vec K p × Vec K p → Except Err (Vec K p × Vec K p)) → Adv σ (Part K p ρ))
    {s : CSAP (Part K p ρ)} (hu : Used s) {xs : List (Part K p ρ)} (hx : CStores s xs)
    (hbig : xs.length < 4294967296) (hneg : fl.neg.isSome = true) (hext : fl.ext = none) {sOn : Bool}
    (hs : CppEField.isOn fl.solvedSw fl.species = sOn)
    (hev : ∀ q ∈ xs, Evaluable fl.neg sOn q)
    (scr : EField.Scratch K p) (hscr : CppEField.ScratchOk s.sl scr) (st : σ) :
    ∃ (e : Nat → Vec K p) (scr' : EField.Scratch K p), CppEField.ScratchOk s.sl scr' ∧
      (∀ (i : Nat) (hi : i < xs.length), IsSolved fl.neg sOn xs[i] (e i)) ∧
      match pass (fun st iIn iOut ch q => core (compiledCrossing (sOn = false) (e iIn.toNat))
            st iIn iOut ch { q with u := q.u + qmdt • e iIn.toNat }) st 0 0 xs with
      | .error err => cppAdvanceCharged fl accelOnly (cppKicked qmdt core) s scr st = .error err
      | .ok (st', ys) => ∃ s', cppAdvanceCharged fl accelOnly (cppKicked qmdt core) s scr st =
            .ok (s', scr', st') ∧ CStores s' ys ∧ Used s' := by
  by_cases hne : xs = []
  · subst hne
    refine ⟨fun _ => 0, scr, hscr, fun i hi => absurd hi (by simp), ?_⟩
    simp only [pass]
    refine ⟨s, ?_, hx, hu⟩
    unfold cppAdvanceCharged
    rw [if_pos (by simpa using hx.1)]
  · obtain ⟨e, scr', h1, h2, h3⟩ := cppCharged_applied fl qmdt core hu hx hne hbig (sOn := sOn)
      (fun _ => hs) (by rw [hext]; simp) hev scr hscr st
    refine ⟨e, scr', h1, h2, ?_⟩
    have hc : ∀ v : Vec K p, compiledCrossing (fl.neg.isSome = true ∧ sOn = false) v =
        compiledCrossing (sOn = false) v := by
      intro v; funext held; unfold compiledCrossing; simp [hneg]
    simp only [hc] at h3
    have hadv : cppAdvanceCharged fl accelOnly (cppKicked qmdt core) s scr st =
        cppChargedPass fl (cppKicked qmdt core) s scr st := by
      unfold cppAdvanceCharged
      rw [if_neg, if_neg, if_neg]
      · rw [hext]; simp
      · cases h : fl.neg <;> simp_all
      · rw [hx.1]
        have := List.length_pos_iff.2 hne
        omega
    rw [hadv]
    exact h3

/-- **C67 is false without a solved field**: the caller needs one (AttributeError), for every
species that has particles. -/
theorem C67_false_no_solved_field (fl : Fields K p (Part K p ρ)) (accelOnly : Bool)
    (adv : CppEField.FieldAt K p → Adv σ (Part K p ρ)) {s : CSAP (Part K p ρ)}
    {xs : List (Part K p ρ)} (hx : CStores s xs) (hne : xs ≠ []) (hneg : fl.neg = none)
    (scr : EField.Scratch K p) (st : σ) :
    cppAdvanceCharged fl accelOnly adv s scr st = .error .attribute := by
  unfold cppAdvanceCharged
  rw [if_neg, if_pos (by rw [hneg]; rfl)]
  rw [hx.1]
  have := List.length_pos_iff.2 hne
  omega

/-- **C67 is false with an external field**: the caller passes an object that the compiled function
does not accept (TypeError), for every species that has particles. -/
theorem C67_false_external (fl : Fields K p (Part K p ρ)) (accelOnly : Bool)
    (adv : CppEField.FieldAt K p → Adv σ (Part K p ρ)) {s : CSAP (Part K p ρ)}
    {xs : List (Part K p ρ)} (hx : CStores s xs) (hne : xs ≠ []) (hneg : fl.neg.isSome = true)
    (hext : fl.ext.isSome = true) (scr : EField.Scratch K p) (st : σ) :
    cppAdvanceCharged fl accelOnly adv s scr st = .error .type := by
  unfold cppAdvanceCharged
  rw [if_neg, if_neg, if_pos hext]
  · cases h : fl.neg <;> simp_all
  · rw [hx.1]
    have := List.length_pos_iff.2 hne
    omega

/-- If user code calls the compiled function itself with an external field, that field has no
effect on the motion: the pass is the same as without it. -/
theorem C67_external_ignored (fl : Fields K p (Part K p ρ)) (qmdt : K)
    (core : (Vec K p × Vec K p → Except Err (Vec K p × Vec K p)) → Adv σ (Part K p ρ))
    {s : CSAP (Part K p ρ)} (hu : Used s) {xs : List (Part K p ρ)} (hx : CStores s xs)
    (hne : xs ≠ []) (hbig : xs.length < 4294967296) {sOn : Bool}
    (hs : fl.neg.isSome = true → CppEField.isOn fl.solvedSw fl.species = sOn)
    (hb : ¬ (fl.neg.isSome = true ∧ sOn = false ∧ fl.ext.isSome = true ∧
      CppEField.isOn fl.extSw fl.species = true))
    (hev : ∀ q ∈ xs, Evaluable fl.neg sOn q)
    (scr : EField.Scratch K p) (hscr : CppEField.ScratchOk s.sl scr) (st : σ) :
    (∃ err, cppChargedPass fl (cppKicked qmdt core) s scr st = .error err ∧
      cppChargedPass { fl with ext := none } (cppKicked qmdt core) s scr st = .error err) ∨
    ∃ s1 scr1 s2 scr2 st' ys,
      cppChargedPass fl (cppKicked qmdt core) s scr st = .ok (s1, scr1, st') ∧
      cppChargedPass { fl with ext := none } (cppKicked qmdt core) s scr st = .ok (s2, scr2, st') ∧
      CStores s1 ys ∧ CStores s2 ys := by
  obtain ⟨e1, scr1, -, he1, h1⟩ := cppCharged_applied fl qmdt core hu hx hne hbig hs hb hev scr hscr st
  obtain ⟨e2, scr2, -, he2, h2⟩ := cppCharged_applied { fl with ext := none } qmdt core hu hx hne
    hbig (sOn := sOn) hs (by simp) hev scr hscr st
  have hee : ∀ (i : Nat), i < xs.length → e1 i = e2 i := by
    intro i hi
    have a1 := he1 i hi
    have a2 := he2 i hi
    simp only at a2
    cases hn : fl.neg with
    | none => rw [hn] at a1 a2; simp only [IsSolved] at a1 a2; rw [a1, a2]
    | some F =>
      rw [hn] at a1 a2
      cases sOn with
      | false =>
        simp only [IsSolved, Bool.false_eq_true, if_false] at a1 a2
        rw [a1, a2]
      | true =>
        simp only [IsSolved, if_true] at a1 a2
        obtain ⟨w1, b1, c1⟩ := a1
        obtain ⟨w2, b2, c2⟩ := a2
        rw [b1] at b2
        cases b2
        rw [c1, c2]
  have hp := pass_congr_idx (α := Part K p ρ) (σ := σ) xs
    (fun st iIn iOut ch q =>
          core (compiledCrossing (fl.neg.isSome = true ∧ sOn = false) (e1 iIn.toNat))
            st iIn iOut ch { q with u := q.u + qmdt • e1 iIn.toNat })
    (fun st iIn iOut ch q =>
          core (compiledCrossing (fl.neg.isSome = true ∧ sOn = false) (e2 iIn.toNat))
            st iIn iOut ch { q with u := q.u + qmdt • e2 iIn.toNat })
    st 0 0 (by
      intro st' i o ic x h0 hi
      simp only [Int.toNat_natCast]
      rw [hee i (by omega)])
  simp only at h2
  rw [hp] at h1
  cases hpp : pass (fun st iIn iOut ch q =>
          core (compiledCrossing (fl.neg.isSome = true ∧ sOn = false) (e2 iIn.toNat))
            st iIn iOut ch { q with u := q.u + qmdt • e2 iIn.toNat }) st 0 0 xs with
  | error err =>
    rw [hpp] at h1 h2
    exact .inl ⟨err, h1, h2⟩
  | ok r =>
    rw [hpp] at h1 h2
    obtain ⟨s1, a1, a2, -⟩ := h1
    obtain ⟨s2, b1, b2, -⟩ := h2
    exact .inr ⟨s1, scr1, s2, scr2, r.1, r.2, a1, b1, a2, b2⟩

end

section
variable {K : Type} [Field K] [LinearOrder K] [IsStrictOrderedRing K] {g p : Nat} {τ ρ δ γ : Type}

/-- **C67 (agreement with Python).** A solved field that is enabled, no external field: a step of a
charged species with the compiled mover and with the Python mover, field preparation included, either
both fail, or leave the same particles, trajectory data and user state.  The records of crossings
contain the same fields in one dimension; in two dimensions this is claimed for records that do not
depend on the field columns. -/
theorem C67_agrees_with_python {cm : CppMesh K} {M : Mesh K g} (ht : cm.Twin M) (h : g ≤ p)
    {L : Layout K p} (hL : L.Right)
    {bcC bcP : Int → τ → BCall K g p ρ → Except Err (τ × Part K p ρ)}
    (hbc : ∀ v st c, SameOk (bcC v st c) (bcP v st c)) (n : Nat) (time dt qmdt : K)
    (np : Nat) (ls : Option Int) (step : Int)
    (mkC : Except Err (Vec K p × Vec K p) → Int → K → Part K p ρ → δ)
    (hmk : p = 1 ∨ ∀ v w, mkC v = mkC w) (mkF : Int → K → Part K p ρ → δ)
    (fl : Fields K p (Part K p ρ)) (normal : γ → K × γ) (hneg : fl.neg.isSome = true)
    (hext : fl.ext = none) (hon : fl.solvedSw.isOn fl.species = .ok true)
    {s : CSAP (Part K p ρ)} (hs : Used s) {sp : SAP (Part K p ρ)} (hp : Reachable sp)
    {xs : List (Part K p ρ)} (hx : CStores s xs) (hxp : Stores sp xs) (hne : xs ≠ [])
    (hbig : xs.length < 4294967296) (hev : ∀ q ∈ xs, Evaluable fl.neg true q)
    (scr1 : EField.Scratch K p) (hscr1 : CppEField.ScratchOk s.sl scr1)
    (scr2 : EField.Scratch K p) (hscr2 : EField.ScratchOk sp.sl scr2) (rng : γ)
    (st : τ × Vec K p) (sc : Scratch K) (held : Vec K p × Vec K p) (t : TrajSp δ) :
    let compiled := cppAdvanceCharged fl false (cppKicked qmdt (fun cross =>
      TrajSp.adv np ls step time dt (·.traj) (·.del) (mkC (cross held)) mkF
        (cppMoveCharged h L cm bcC n time dt 0 (fun _ => none)))) s scr1 ((st, sc), t)
    let python := Mover.meshPassE (EField.prepare fl normal) (kicked qmdt (fun cross =>
      TrajSp.adv np ls step time dt (·.traj) (·.del) (mkC cross) mkF
        (moveCharged h M .charged bcP n time dt 0 false (fun _ => none)))) sp (scr2, rng) (st, t)
    (∃ e1 e2, compiled = .error e1 ∧ python = .error e2) ∨
    ∃ s' sp' r1 r2 st' sc' t' ys, compiled = .ok (s', r1, ((st', sc'), t')) ∧
      python = .ok (sp', r2, (st', t')) ∧ CStores s' ys ∧ Stores sp' ys ∧ Used s' := by
  intro compiled python
  have hon' : CppEField.isOn fl.solvedSw fl.species = true := by
    unfold Switch.isOn at hon
    unfold CppEField.isOn
    cases hsw : fl.solvedSw with
    | none => rfl
    | some f =>
      rw [hsw] at hon
      simp only at hon ⊢
      cases hf : f fl.species with
      | none => rw [hf] at hon; cases hon
      | some b => rw [hf] at hon; cases hon; rfl
  obtain ⟨e1, r1, -, he1, k1⟩ := C67_applied_field_partial fl false qmdt (fun cross =>
      TrajSp.adv np ls step time dt (·.traj) (·.del) (mkC (cross held)) mkF
        (cppMoveCharged h L cm bcC n time dt 0 (fun _ => none))) hs hx hbig hneg hext hon' hev scr1
    hscr1 ((st, sc), t)
  have hnp : sp.getNumberOfItems ≠ 0 := by
    rw [hxp.1]; have := List.length_pos_iff.2 hne; omega
  obtain ⟨e2, x2, r2, g2, -, he2, k2⟩ := C35_applied_field_partial fl normal (sOn := true)
    (xOn := true) ⟨fun _ => hon, by rw [hext]; simp, by simp⟩ qmdt (fun cross =>
      TrajSp.adv np ls step time dt (·.traj) (·.del) (mkC cross) mkF
        (moveCharged h M .charged bcP n time dt 0 false (fun _ => none))) hp hnp xs hxp.1.symm hxp.2
    hev (by rw [hext]; intro _ _ _ _ G hG; cases hG) scr2 hscr2 rng (st, t)
  obtain ⟨F, hF⟩ := Option.isSome_iff_exists.1 hneg
  have hee : ∀ (i : Nat), i < xs.length → e2 i = e1 i ∧ x2 i = 0 := by
    intro i hi
    have a1 := he1 i hi
    have a2 := (he2 i hi).1
    have a3 := (he2 i hi).2
    rw [hext] at a3
    rw [hF] at a1 a2
    simp only [IsSolved, if_true] at a1 a2
    obtain ⟨w1, b1, c1⟩ := a1
    obtain ⟨w2, b2, c2⟩ := a2
    rw [b1] at b2
    cases b2
    exact ⟨by rw [c1, c2], a3⟩
  have hcr : ∀ e : Vec K p, mkC (compiledCrossing (true = false) e held) = mkC (.ok (e, 0)) := by
    intro e
    rcases hmk with rfl | hmk
    · congr 1
      unfold compiledCrossing
      rw [if_neg (by simp)]
      congr 2
      · funext j; simp
      · funext j; simp
    · exact hmk _ _
  rw [pass_congr_idx xs _ (fun st iIn iOut ch q =>
      TrajSp.adv np ls step time dt (·.traj) (·.del) (mkC (.ok (e1 iIn.toNat, 0))) mkF
        (moveCharged h M .charged bcP n time dt 0 false (fun _ => none)) st iIn iOut ch
        { q with u := q.u + qmdt • e1 iIn.toNat }) (st, t) 0 0 (by
      intro st' i o ic x h0 hi
      simp only [Int.toNat_natCast]
      obtain ⟨b1, b2⟩ := hee i (by omega)
      rw [b1, b2, hneg, hext]
      simp only [Spec.crossing, Option.isSome_none, Bool.false_eq_true, false_and, if_false, and_false,
        add_zero, Bool.true_eq_false])] at k2
  simp only [hcr] at k1
  have sim := pass_sim (R := fun (a : ((τ × Vec K p) × Scratch K) × TrajSp δ)
      (b : (τ × Vec K p) × TrajSp δ) => a.1.1 = b.1 ∧ a.2 = b.2)
    (adv1 := fun st iIn iOut ch q =>
      TrajSp.adv np ls step time dt (·.traj) (·.del) (mkC (.ok (e1 iIn.toNat, 0))) mkF
        (cppMoveCharged h L cm bcC n time dt 0 (fun _ => none)) st iIn iOut ch
        { q with u := q.u + qmdt • e1 iIn.toNat })
    (adv2 := fun st iIn iOut ch q =>
      TrajSp.adv np ls step time dt (·.traj) (·.del) (mkC (.ok (e1 iIn.toNat, 0))) mkF
        (moveCharged h M .charged bcP n time dt 0 false (fun _ => none)) st iIn iOut ch
        { q with u := q.u + qmdt • e1 iIn.toNat })
    (fun st1 st2 i o ic q hR => trajAdv_sim (δ := δ)
      (R := fun (a : (τ × Vec K p) × Scratch K) (b : τ × Vec K p) => a.1 = b)
      (fun st1 st2 x hR => moveCharged_sim ht h hL hbc n time dt 0 (fun _ => none) st1 st2 x hR)
      np ls step time dt (·.traj) (·.del) (mkC (.ok (e1 i.toNat, 0))) mkF st1 st2 i o ic _ hR)
    xs ((st, sc), t) (st, t) 0 0 ⟨rfl, rfl⟩
  rcases sim.cases with ⟨e1, e2, h1, h2⟩ | ⟨⟨⟨st1, sc1⟩, t1⟩, ⟨st2, t2⟩, ys, h1, h2, hR, hT⟩
  · rw [h1] at k1
    rw [h2] at k2
    exact .inl ⟨e1, e2, k1, k2⟩
  · rw [h1] at k1
    rw [h2] at k2
    simp only at hR hT
    subst hR hT
    obtain ⟨s', a1, a2, a3⟩ := k1
    obtain ⟨sp', b1, b2, b3⟩ := k2
    exact .inr ⟨s', sp', r1, (r2, g2), st1, sc1, t1, ys, a1, b1, a2, ⟨b2, b3⟩, a3⟩

end

/-! ### Witnesses -/

section
open EField (Switch)

/-- A field of strength 2 everywhere, enabled for the species `e`, disabled for `p`, and not
mentioned for others. -/
def demoFields (sn : String) : Fields ℚ 1 (Part ℚ 1 Nat) :=
  ⟨some (fun _ => .ok ![-2]), none,
    some (fun n => if n = "e" then some true else if n = "p" then some false else none), none, sn⟩

/-- The mover of the following examples: free motion, no boundaries. -/
def demoFree (_ : Vec ℚ 1 × Vec ℚ 1 → Except Err (Vec ℚ 1 × Vec ℚ 1)) : Adv Unit (Part ℚ 1 Nat) :=
  fun st _ _ _ q => .ok (st, cppMoveBy 1 q, true)

/-- Positions and velocities after a compiled step of three particles at rest, segment length 2. -/
def demoAfter (sn : String) (accelOnly : Bool) : Except Err (List (ℚ × ℚ)) :=
  (cppAdvanceCharged (demoFields sn) accelOnly (cppKicked 1 demoFree)
    (pushAll 2 (demoPart 0 0 0 false) [demoPart 1 0 0 false, demoPart 2 0 0 false, demoPart 3 0 0 false])
    (EField.Scratch.new 2) ()).map
    (fun r => (List.range 3).filterMap (fun i => (r.1.getItem i).toOption.map (fun q => (q.x 0, q.u 0))))

/-- The field is applied if enabled, and not if disabled. -/
example : demoAfter "e" false = .ok [(3, 2), (4, 2), (5, 2)] ∧
    demoAfter "p" false = .ok [(1, 0), (2, 0), (3, 0)] := by
  decide +kernel

/-- The hypotheses of `C67_applied_field_partial` are met by this case. -/
example : Used (pushAll 2 (demoPart 0 0 0 false) [demoPart 1 0 0 false, demoPart 2 0 0 false, demoPart 3 0 0 false]) ∧
    (demoFields "e").neg.isSome = true ∧ (demoFields "e").ext = none ∧
    CppEField.isOn (demoFields "e").solvedSw (demoFields "e").species = true ∧
    (∀ q, Evaluable (demoFields "e").neg true q) ∧
    CppEField.ScratchOk 2 (EField.Scratch.new 2 : EField.Scratch ℚ 1) :=
  ⟨used_pushAll _ (by decide) _ _, rfl, rfl, rfl, fun _ G hG _ => by cases hG; exact ⟨_, rfl⟩,
    ⟨rfl, rfl, rfl⟩⟩

/-- **C67 is false for `accel_only`**: the particles are moved all the same. -/
theorem C67_false_accel_only : demoAfter "e" true = .ok [(3, 2), (4, 2), (5, 2)] := by
  decide +kernel

/-- **C67 is false for a species missing in the switch dictionary**: the Python mover refuses
(KeyError), the compiled mover takes the field as disabled. -/
theorem C67_false_missing_name :
    (demoFields "He").solvedSw.isOn "He" = .error .key ∧
    demoAfter "He" false = .ok [(1, 0), (2, 0), (3, 0)] := by
  decide +kernel

/-- **C67 is false for the second field component of a crossing record**: it is whatever the array
held, while the Python mover stores the field. -/
theorem C67_false_second_component (e held : Vec ℚ 2) (hd : held 1 ≠ e 1) :
    ∃ r, CppEField.FieldAt.cross ⟨some e, 0⟩ (held, 0) = .ok r ∧ r.1 0 = e 0 ∧ r.1 1 ≠ e 1 ∧
    EField.crossFields (some e) false none = .ok (e, 0) :=
  ⟨_, rfl, rfl, by simpa [putFirst] using hd, rfl⟩

/-- **C67 is false for a trajectory particle of a species whose field is disabled**: crossing a
marked facet dereferences a null pointer. -/
theorem C67_false_disabled_crossing {K : Type} [Field K] [DecidableEq K] {p : Nat} {ρ : Type}
    (fl : Fields K p (Part K p ρ)) (F : Part K p ρ → Except Err (Vec K p)) (hF : fl.neg = some F)
    (hext : fl.ext = none) (hoff : CppEField.isOn fl.solvedSw fl.species = false)
    (scr : EField.Scratch K p) (hx : scr.ext.length = 2) (q1 q2 : Part K p ρ) :
    ∃ f1 f2, CppEField.prepare fl (scr, .null) [q1, q2] 2 = .ok ((scr, .null), [f1, f2]) ∧
      ∀ held, f1.cross held = .error .ub ∧ f2.cross held = .error .ub := by
  obtain ⟨a, b, hab⟩ := List.length_eq_two.1 hx
  refine ⟨⟨none, a⟩, ⟨none, b⟩, ?_, fun _ => ⟨rfl, rfl⟩⟩
  simp [CppEField.prepare, CppEField.solvedPart, CppEField.externalPart, hF, hext, hoff, bind,
    Except.bind, pure, Except.pure, rows, hab]

end
end Dt
