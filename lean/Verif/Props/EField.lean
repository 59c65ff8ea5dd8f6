import Verif.Lemmas.EField
import Verif.Props.Mover
import Mathlib.Algebra.Field.Rat
import Mathlib.Algebra.Order.Ring.Rat

/-!
# Properties: the field applied to a charged species

C35, C60.
-/

set_option linter.unusedSectionVars false

namespace Dt
open SAP Mover EField

variable {K : Type} [Field K] [DecidableEq K] {p : Nat} {ρ σ γ : Type}

/-- The per-particle code of a charged species that uses its field for the kick (with factor
`qmdt`), and the field columns when it crosses a marked facet; everything that follows the kick is
`core`. -/
def kicked (qmdt : K) (core : Except Err (Vec K p × Vec K p) → Adv σ (Part K p ρ))
    (f : FieldAt K p) : Adv σ (Part K p ρ) :=
  fun st iIn iOut ch q => core f.cross st iIn iOut ch (accelerate qmdt f.kick q)

/-- **C35**: whatever the scratch arrays of the mover contain, a pass over a species is the pass
over the list of its particles in which particle `i` is given the velocity
`u + qmdt (e + x)`, where `e` is the value of the solved field at the particle if that field is
given and enabled, zero otherwise, and `x` the value of the external field times a random number if
that field is given and enabled, zero otherwise.

Partial: the external field, if it counts, is assumed to be defined at all slots of the container
(`C35_false_stale_slot`), and it is excluded that a solved field is given but disabled while an
external field counts (`C35_false_disabled`). -/
theorem C35_applied_field_partial (fl : Fields K p (Part K p ρ)) (normal : γ → K × γ)
    {sOn xOn : Bool} (hsel : Selected fl sOn xOn) (qmdt : K)
    (core : Except Err (Vec K p × Vec K p) → Adv σ (Part K p ρ)) {s : SAP (Part K p ρ)}
    (hr : Reachable s) (hn : s.getNumberOfItems ≠ 0) (xs : List (Part K p ρ))
    (hx : (xs.length : Int) = s.getNumberOfItems)
    (hxs : ∀ (i : Nat) (hi : i < xs.length), s.getItem i = .ok xs[i])
    (hevs : ∀ q ∈ xs, Evaluable fl.neg sOn q)
    (hevx : ∀ v ∈ s.outA.segs, ∀ q ∈ v, Evaluable fl.ext xOn q)
    (scr : Scratch K p) (hscr : ScratchOk s.sl scr) (g : γ) (st : σ) :
    ∃ (e x : Nat → Vec K p) (scr' : Scratch K p) (g' : γ), ScratchOk s.sl scr' ∧
      (∀ (i : Nat) (hi : i < xs.length), Spec.IsSolved fl.neg sOn xs[i] (e i) ∧
        Spec.IsExternal normal fl.ext xOn xs[i] (x i)) ∧
      match Spec.pass (fun st iIn iOut ch q =>
          core (Spec.crossing fl.neg.isSome sOn fl.ext.isSome xOn (e iIn.toNat) (x iIn.toNat))
            st iIn iOut ch { q with u := q.u + qmdt • (e iIn.toNat + x iIn.toNat) }) st 0 0 xs with
      | .error err => meshPassE (prepare fl normal) (kicked qmdt core) s (scr, g) st = .error err
      | .ok (st', ys) => ∃ s', meshPassE (prepare fl normal) (kicked qmdt core) s (scr, g) st =
            .ok (s', (scr', g'), st') ∧
          s'.getNumberOfItems = ys.length ∧
          (∀ (i : Nat) (hi : i < ys.length), s'.getItem i = .ok ys[i]) := by
  have hi := reachable_inv hr
  have hxc : xs = s.contents := by
    have hl := contents_length hi
    apply List.ext_getElem (by omega)
    intro i h1 h2
    have h3 := hxs i h1
    rw [getItem_ok hi h2] at h3
    exact (Except.ok.inj h3).symm
  obtain ⟨all, ⟨scr', g'⟩, h1, h2, h3⟩ := meshPass_sim (prepare_ok fl normal hsel s.sl)
    (kicked qmdt core) hi hevx (by rw [← hxc]; exact hevs) (scr, g) hscr st
  rw [← hxc] at h1
  rw [List.forall₂_iff_get] at h1
  obtain ⟨hl, hg⟩ := h1
  have hg' : ∀ i : Nat, ∃ e x : Vec K p, ∀ (h : i < xs.length) (h' : i < all.length),
      Spec.IsSolved fl.neg sOn xs[i] e ∧ Spec.IsExternal normal fl.ext xOn xs[i] x ∧
      (all[i]).kick = (if fl.neg.isSome = true ∧ sOn = false then none else some (e + x)) ∧
      (all[i]).cross = Spec.crossing fl.neg.isSome sOn fl.ext.isSome xOn e x := by
    intro i
    by_cases h : i < xs.length
    · obtain ⟨e, x, h4⟩ := hg i h (by omega)
      exact ⟨e, x, fun _ _ => h4⟩
    · exact ⟨0, 0, fun h' => absurd h' h⟩
  choose e x hex using hg'
  refine ⟨e, x, scr', g', h2, fun i hi => ⟨(hex i hi (by omega)).1, (hex i hi (by omega)).2.1⟩, ?_⟩
  rw [h3]
  have hpass := C11_pass_refines_list (advI all (kicked qmdt core)) hr hn xs hx hxs st
  have hsame : ∀ (k : Nat) (st : σ) (o : Nat), k ≤ xs.length →
      Spec.pass (advI all (kicked qmdt core)) st (xs.length - k) o (xs.drop (xs.length - k)) =
      Spec.pass (fun st iIn iOut ch q =>
          core (Spec.crossing fl.neg.isSome sOn fl.ext.isSome xOn (e iIn.toNat) (x iIn.toNat))
            st iIn iOut ch { q with u := q.u + qmdt • (e iIn.toNat + x iIn.toNat) }) st
        (xs.length - k) o (xs.drop (xs.length - k)) := by
    intro k
    induction k with
    | zero => intro st o _; simp [Spec.pass]
    | succ k ih =>
      intro st o hk
      have hlt : xs.length - (k + 1) < xs.length := by omega
      rw [List.drop_eq_getElem_cons hlt]
      obtain ⟨e1, e2, e3, e4⟩ := hex _ hlt (by omega)
      have hadv : ∀ ch, advI all (kicked qmdt core) st ((xs.length - (k + 1) : Nat) : Int) (o : Int) ch
            xs[xs.length - (k + 1)] =
          core (Spec.crossing fl.neg.isSome sOn fl.ext.isSome xOn (e (xs.length - (k + 1)))
            (x (xs.length - (k + 1)))) st ((xs.length - (k + 1) : Nat) : Int) (o : Int) ch
            { xs[xs.length - (k + 1)] with u := xs[xs.length - (k + 1)].u +
              qmdt • (e (xs.length - (k + 1)) + x (xs.length - (k + 1))) } := by
        intro ch
        unfold advI kicked
        rw [pyGet_of_lt (by omega : xs.length - (k + 1) < all.length)]
        simp only [bind, Except.bind, e3, e4]
        congr 1
        by_cases hoff : fl.neg.isSome = true ∧ sOn = false
        · rw [if_pos hoff]
          have he0 : e (xs.length - (k + 1)) = 0 := by
            obtain ⟨F, hF⟩ := Option.isSome_iff_exists.1 hoff.1
            rw [hF, hoff.2] at e1
            simpa [Spec.IsSolved] using e1
          have hx0 : x (xs.length - (k + 1)) = 0 := by
            cases hF : fl.ext with
            | none => rw [hF] at e2; simpa [Spec.IsExternal] using e2
            | some F =>
              have : xOn = false := by
                rcases Bool.eq_false_or_eq_true xOn with h | h
                · exact absurd ⟨hoff.1, hoff.2, by rw [hF]; rfl, h⟩ hsel.both
                · exact h
              rw [hF, this] at e2; simpa [Spec.IsExternal] using e2
          rw [he0, hx0]
          have hz : qmdt • ((0 : Vec K p) + 0) = 0 := by funext i; simp
          rw [hz, add_zero]
          rfl
        · rw [if_neg hoff]
          rfl
      have e5 : xs.length - (k + 1) + 1 = xs.length - k := by omega
      simp only [Spec.pass, hadv, Int.toNat_natCast, e5]
      have ih' := fun st o => ih st o (by omega)
      simp only [ih']
  have hs0 := hsame xs.length st 0 (le_refl _)
  rw [Nat.sub_self, List.drop_zero] at hs0
  rw [hs0] at hpass
  revert hpass
  cases Spec.pass (fun st iIn iOut ch q =>
          core (Spec.crossing fl.neg.isSome sOn fl.ext.isSome xOn (e iIn.toNat) (x iIn.toNat))
            st iIn iOut ch { q with u := q.u + qmdt • (e iIn.toNat + x iIn.toNat) }) st 0 0 xs with
  | error err => intro h; simp only at h ⊢; rw [h]; rfl
  | ok r =>
    intro h
    obtain ⟨s', h4, h5, h6, h7⟩ := h
    refine ⟨s', ?_, h5, h6⟩
    rw [h4]; rfl

/-- **C35** is false if a solved field is given but disabled for the species and an external
field is enabled: the pass raises an AttributeError for every container that holds a particle. -/
theorem C35_false_disabled (fl : Fields K p (Part K p ρ)) (normal : γ → K × γ)
    (hneg : fl.neg.isSome = true) (hoff : fl.solvedSw.isOn fl.species = .ok false)
    (hext : fl.ext.isSome = true) (hon : fl.extSw.isOn fl.species = .ok true)
    (adv : FieldAt K p → Adv σ (Part K p ρ)) {s : SAP (Part K p ρ)} (hr : Reachable s)
    (hn : s.getNumberOfItems ≠ 0)
    (hevx : ∀ v ∈ s.outA.segs, ∀ q ∈ v, Evaluable fl.ext true q)
    (scr : Scratch K p) (hscr : ScratchOk s.sl scr) (g : γ) (st : σ) :
    meshPassE (prepare fl normal) adv s (scr, g) st = .error .attribute := by
  have hi := reachable_inv hr
  apply meshPassE_prep_error adv hi hn
  intro n
  obtain ⟨f, o, hf, ho, hfl, -⟩ := hi.out.total
  have hget : s.outA.segs.getD 0 [] = s.outA.segs[0] := by
    rw [List.getD_eq_getElem?_getD, List.getElem?_eq_getElem (by omega)]; rfl
  have hmem : s.outA.segs[0] ∈ s.outA.segs := List.getElem_mem _
  obtain ⟨N, hN⟩ := Option.isSome_iff_exists.1 hneg
  obtain ⟨X, hX⟩ := Option.isSome_iff_exists.1 hext
  obtain ⟨ws, g', -, h2⟩ := interpolateRandom_ok normal X s.outA.segs[0]
    (fun q hq => hevx _ hmem q hq X hX rfl) g
  have h3 := h2 [] scr.ext 0 rfl (by rw [hscr.2.1, hi.out.uni _ hmem])
  rw [List.nil_append] at h3
  rw [hget]
  simp [prepare, hN, hX, solvedPart, externalPart, hoff, hon, bind, Except.bind, pure, Except.pure,
    h3]

/-! ### A two-step run: the external field is evaluated at slots that hold no particle -/

namespace Slab

abbrev Q := Part ℚ 1 Unit

def mk (x u : ℚ) : Q := ⟨fun _ => x, fun _ => x, fun _ => u, 0, false, false, 0, ()⟩

/-- The mesh is the interval [0, 1]. -/
def inside (q : Q) : Bool := decide (0 ≤ q.x 0) && decide (q.x 0 ≤ 1)

/-- A field defined in the mesh only. -/
def field (q : Q) : Except Err (Vec ℚ 1) := if inside q then .ok (fun _ => 1 / 4) else .error .runtime

def fields : Fields ℚ 1 Q := ⟨none, some field, none, none, "ions"⟩

/-- A generator that always produces 1/8. -/
def normal (_ : Unit) : ℚ × Unit := (1 / 8, ())

/-- Move for a time 1, delete what has left the mesh. -/
def core (_ : Except Err (Vec ℚ 1 × Vec ℚ 1)) : Adv Unit Q :=
  fun _ _ _ _ q => .ok ((), moveBy 1 q, inside (moveBy 1 q))

instance : Inhabited Q := ⟨mk 0 0⟩

def store : SAP Q := demoSAP 2 [mk (1 / 2) 0, mk (9 / 10) (1 / 2)]

def step (s : SAP Q) (r : Scratch ℚ 1 × Unit) : Except Err (SAP Q × (Scratch ℚ 1 × Unit) × Unit) :=
  meshPassE (prepare fields normal) (kicked 1 core) s r ()

end Slab

open Slab in
/-- **C35** is false: the external field is evaluated at all slots of a segment, also at those
that hold no particle.  Of two particles in the mesh one leaves it in the first step and is deleted.
In the second step the one particle that is left is in the mesh, where the field is defined; the
pass raises, because the slot of the deleted particle still holds the position outside. -/
theorem C35_false_stale_slot : ∃ s' r', step store (Scratch.new 2, ()) = .ok (s', r', ()) ∧
    s'.getNumberOfItems = 1 ∧ (∃ q, s'.getItem 0 = .ok q ∧ ∃ w, field q = .ok w) ∧
    step s' r' = .error .runtime := by
  have h : (match step store (Scratch.new 2, ()) with
    | .error _ => false
    | .ok (s', r', _) => decide (s'.getNumberOfItems = 1) &&
        (match s'.getItem 0 with | .ok q => inside q | .error _ => false) &&
        (match step s' r' with | .error e => decide (e = .runtime) | .ok _ => false)) = true := by
    decide +kernel
  cases h1 : step store (Scratch.new 2, ()) with
  | error e => rw [h1] at h; simp at h
  | ok x =>
    obtain ⟨s', r', ⟨⟩⟩ := x
    rw [h1] at h
    simp only [Bool.and_eq_true, decide_eq_true_eq] at h
    obtain ⟨⟨h2, h3⟩, h4⟩ := h
    refine ⟨s', r', rfl, h2, ?_, ?_⟩
    · cases h5 : s'.getItem 0 with
      | error e => rw [h5] at h3; simp at h3
      | ok q =>
        rw [h5] at h3
        exact ⟨q, rfl, fun _ => 1 / 4, by unfold field; rw [if_pos h3]⟩
    · cases h5 : step s' r' with
      | error e => rw [h5] at h4; simp only [decide_eq_true_eq] at h4; rw [h4]
      | ok x => rw [h5] at h4; simp at h4

/-- The hypotheses of `C35_applied_field_partial` are met by the first step of this run. -/
example : Selected Slab.fields true true ∧ ScratchOk 2 (Scratch.new 2 : Scratch ℚ 1) ∧
    (∀ v ∈ Slab.store.outA.segs, ∀ q ∈ v, Evaluable Slab.fields.ext true q) ∧
    Slab.store.getNumberOfItems = 2 ∧ Slab.store.sl = 2 := by
  refine ⟨⟨by decide, by decide, by decide⟩, ⟨by decide, by decide, by rfl⟩, ?_, by decide +kernel,
    by decide +kernel⟩
  intro v hv q hq G hG _
  have hin : (Slab.store.outA.segs.all (fun v => v.all Slab.inside)) = true := by decide +kernel
  rw [List.all_eq_true] at hin
  have h1 := hin v hv
  rw [List.all_eq_true] at h1
  have h2 := h1 q hq
  cases hG
  exact ⟨fun _ => 1 / 4, by unfold Slab.field; rw [if_pos h2]⟩

/-! ## C60: the field columns of a crossing record -/

/-- **C60**, partial: without an external field, and with the solved field absent or enabled, the
field columns of a record made at a marked facet are those of a scheduled record of the particle
(as it was at the start of the step). -/
theorem C60_no_external_partial {α : Type} (fl : Fields K p α) (normal : γ → K × γ)
    (hext : fl.ext = none) (hneg : fl.neg.isSome = true → fl.solvedSw.isOn fl.species = .ok true)
    (pseg : List α) (n : Nat) (hn : n ≤ pseg.length)
    (hev : ∀ q ∈ pseg.take n, Evaluable fl.neg true q) (scr : Scratch K p)
    (hscr : ScratchOk pseg.length scr) (g : γ) :
    ∃ r' fs, prepare fl normal (scr, g) pseg n = .ok (r', fs) ∧
      List.Forall₂ (fun q (f : FieldAt K p) => f.cross = scheduledFields fl q) (pseg.take n) fs := by
  have hsel : Selected fl true true := ⟨hneg, by simp [hext], by simp⟩
  obtain ⟨r', fs, h1, -, h3⟩ := prepare_ok fl normal hsel pseg.length (scr, g) pseg n hscr rfl hn
    (by intro q _ G hG; rw [hext] at hG; cases hG) hev
  refine ⟨r', fs, h1, h3.imp ?_⟩
  rintro q f ⟨e, x, he, hx, -, hc⟩
  rw [hc]
  have hx0 : x = 0 := by rw [hext] at hx; simpa [Spec.IsExternal] using hx
  subst hx0
  unfold Spec.crossing scheduledFields
  rw [if_neg (by simp), if_neg (by simp)]
  cases hN : fl.neg with
  | none =>
    rw [hN] at he
    have : e = 0 := by simpa [Spec.IsSolved] using he
    simp [fieldOrZero, hext, this, bind, Except.bind, pure, Except.pure]
  | some F =>
    rw [hN] at he
    simp only [Spec.IsSolved, if_true] at he
    obtain ⟨w, h4, h5⟩ := he
    simp [fieldOrZero, hext, h4, h5, bind, Except.bind, pure, Except.pure]

/-- **C60** is false with an external field: for a particle whose scheduled record would hold `e`
and `w` (solved and external field) the record made at a marked facet holds `e + r w` and `r w`,
with a random `r`. -/
theorem C60_false_external {α : Type} (fl : Fields K p α) (normal : γ → K × γ)
    (hsw : fl.neg.isSome = true → fl.solvedSw.isOn fl.species = .ok true)
    (hext : fl.ext.isSome = true) (hon : fl.extSw.isOn fl.species = .ok true)
    (pseg : List α) (n : Nat) (hn : n ≤ pseg.length)
    (hevs : ∀ q ∈ pseg.take n, Evaluable fl.neg true q) (hevx : ∀ q ∈ pseg, Evaluable fl.ext true q)
    (scr : Scratch K p) (hscr : ScratchOk pseg.length scr) (g : γ) :
    ∃ r' fs, prepare fl normal (scr, g) pseg n = .ok (r', fs) ∧
      List.Forall₂ (fun q (f : FieldAt K p) => ∃ e w g', scheduledFields fl q = .ok (e, w) ∧
        f.cross = .ok (e + (normal g').1 • w, (normal g').1 • w)) (pseg.take n) fs := by
  have hsel : Selected fl true true := ⟨hsw, fun _ => hon, by simp⟩
  obtain ⟨r', fs, h1, -, h3⟩ := prepare_ok fl normal hsel pseg.length (scr, g) pseg n hscr rfl hn
    hevx hevs
  refine ⟨r', fs, h1, h3.imp ?_⟩
  rintro q f ⟨e, x, he, hx, -, hc⟩
  obtain ⟨X, hX⟩ := Option.isSome_iff_exists.1 hext
  rw [hX] at hx
  simp only [Spec.IsExternal, if_true] at hx
  obtain ⟨w, g', h4, rfl⟩ := hx
  refine ⟨e, w, g', ?_, ?_⟩
  · unfold scheduledFields
    cases hN : fl.neg with
    | none =>
      rw [hN] at he
      have : e = 0 := by simpa [Spec.IsSolved] using he
      simp [fieldOrZero, hX, h4, this, bind, Except.bind, pure, Except.pure]
    | some F =>
      rw [hN] at he
      simp only [Spec.IsSolved, if_true] at he
      obtain ⟨v, h5, h6⟩ := he
      simp [fieldOrZero, hX, h4, h5, h6, bind, Except.bind, pure, Except.pure]
  · rw [hc]
    unfold Spec.crossing
    rw [if_neg (by simp), if_neg (by simp)]

/-- **C60** is false if a field is given but switched off for the species: there is no record, the
crossing raises a TypeError (solved field off) or a NameError (external field off). -/
theorem C60_false_switched_off {α : Type} (fl : Fields K p α) (normal : γ → K × γ)
    {sOn xOn : Bool} (hsel : Selected fl sOn xOn)
    (hoff : (fl.neg.isSome = true ∧ sOn = false) ∨ (fl.ext.isSome = true ∧ xOn = false))
    (pseg : List α) (n : Nat) (hn : n ≤ pseg.length)
    (hevs : ∀ q ∈ pseg.take n, Evaluable fl.neg sOn q)
    (scr : Scratch K p) (hscr : ScratchOk pseg.length scr) (g : γ) :
    ∃ r' fs, prepare fl normal (scr, g) pseg n = .ok (r', fs) ∧
      List.Forall₂ (fun _ (f : FieldAt K p) => f.cross = .error
        (if fl.neg.isSome = true ∧ sOn = false then .type else .name)) (pseg.take n) fs := by
  have hx : ∀ q ∈ pseg, Evaluable fl.ext xOn q := by
    intro q _ G hG hon
    exfalso
    rcases hoff with h | h
    · exact hsel.both ⟨h.1, h.2, by rw [hG]; rfl, hon⟩
    · rw [h.2] at hon; cases hon
  obtain ⟨r', fs, h1, -, h3⟩ := prepare_ok fl normal hsel pseg.length (scr, g) pseg n hscr rfl hn
    hx hevs
  refine ⟨r', fs, h1, h3.imp ?_⟩
  rintro q f ⟨e, x, -, -, -, hc⟩
  rw [hc]
  unfold Spec.crossing
  by_cases h : fl.neg.isSome = true ∧ sOn = false
  · rw [if_pos h, if_pos h]
  · rw [if_neg h, if_neg h, if_pos (hoff.resolve_left h)]

/-- With the fields of the two-step run the values of the two records differ. -/
example : (match prepare Slab.fields Slab.normal (Scratch.new 2, ()) [Slab.mk (1 / 2) 0, Slab.mk 0 0] 1 with
    | .ok (_, f :: _) => match f.cross with
      | .ok (a, b) => decide (a 0 = 1 / 32 ∧ b 0 = 1 / 32)
      | _ => false
    | _ => false) = true ∧
    (match scheduledFields Slab.fields (Slab.mk (1 / 2) 0) with
      | .ok (a, b) => decide (a 0 = 0 ∧ b 0 = 1 / 4)
      | _ => false) = true := by decide +kernel

end Dt
