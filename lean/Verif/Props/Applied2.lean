import Verif.Props.Applied
import Verif.Props.Species
import Verif.Props.Traj
import Verif.Props.Sources
import Verif.Props.Cross
import Verif.Props.SelfForce
import Verif.Props.CppPlasma
/-!
# More theorems applied to concrete cases: containers, movers, densities

A container in which the particles 2 to 6 are stored exists by `stored`, and one of the compiled code by `cstored`; the
theorems about a step of a species are applied to it with a mover that deletes odd particles.
-/
namespace Dt
open SAP Spec

section
open Mover

def fiveParts : List Nat := [2, 3, 4, 5, 6]

example : ∃ s' : SAP Nat, s'.getNumberOfItems = 3 ∧ s'.getItem 2 = .ok 106 := by
  obtain ⟨s, hr, ⟨hn, hi⟩, -⟩ := stored 2 (by decide) 0 fiveParts
  obtain ⟨s', -, h1, h2⟩ := C11_survivors (fun p => (p + 100, p % 2 == 0)) hr (by rw [hn]; decide) fiveParts hn.symm hi
  exact ⟨s', h1, h2 2 (by decide)⟩

-- The fourth particle makes the mover raise an error.
example : ∃ s : SAP Nat, Stores s fiveParts ∧
    meshPass (fun (_ : Unit) _ _ _ p => if p = 5 then .error .runtime else .ok ((), p, true)) s () = .error .runtime := by
  obtain ⟨s, hr, ⟨hn, hi⟩, -⟩ := stored 2 (by decide) 0 fiveParts
  exact ⟨s, ⟨hn, hi⟩, (C12_raises_iff_particle_raises _ hr (by rw [hn]; decide) fiveParts hn.symm hi () .runtime).2
    ⟨3, by decide, (), [2, 3, 4], rfl, rfl⟩⟩

-- All particles leave.
example : ∃ (s : SAP Nat), Stores s fiveParts ∧
    ∃ s' t seg, meshPass (fun (_ : Unit) _ _ _ p => .ok ((), p, false)) s () = .ok (s', ()) ∧ s'.getNumberOfItems = 0 ∧
      s'.readLoop = .ok (t, [seg]) ∧ seg.length = 2 := by
  obtain ⟨s, hr, ⟨hn, hi⟩, hsl⟩ := stored 2 (by decide) 0 fiveParts
  obtain ⟨s1, t, seg, e, h1, h2, -⟩ := C14_ghosts (fun (_ : Unit) _ _ _ p => .ok ((), p, false)) hr (by rw [hn]; decide) fiveParts hn.symm hi
    (st := ()) (st' := ()) rfl
  obtain ⟨s2, e2, h3, -⟩ := C14_count_zero_partial (fun (_ : Unit) _ _ _ p => .ok ((), p, false)) hr (by rw [hn]; decide) fiveParts hn.symm hi
    (st := ()) (st' := ()) rfl
  rw [e] at e2
  cases e2
  exact ⟨s, ⟨hn, hi⟩, s1, t, seg, e, h3, h1, h2.trans hsl⟩

example : ∃ (s s' t : SAP Nat), Stores s fiveParts ∧ uniformPass (fun p => p % 2 == 1) (· + 100) s = .ok s' ∧
    s'.readLoop = .ok (t, [[102, 104], [106]]) := by
  obtain ⟨s, hr, ⟨hn, hi⟩, hsl⟩ := stored 2 (by decide) 0 fiveParts
  obtain ⟨s', t, e, -, h⟩ := C13_uniform_partial (fun p => p % 2 == 1) (· + 100) hr (by rw [hn]; decide) fiveParts hn.symm hi _ rfl
    (by rw [hsl]; decide)
  rw [hsl] at h
  exact ⟨s, s', t, ⟨hn, hi⟩, e, h⟩

-- Two particles remain, which fill a segment: the count is wrong.
example : ∃ (s s' : SAP Nat), Stores s fiveParts ∧ uniformPass (fun p => p % 2 == 0) (· + 100) s = .ok s' ∧ s'.getNumberOfItems = 4 := by
  obtain ⟨s, hr, ⟨hn, hi⟩, hsl⟩ := stored 2 (by decide) 0 fiveParts
  obtain ⟨s', e, h, -⟩ := C13_uniform_count_exact (fun p => p % 2 == 0) (· + 100) hr (by rw [hn]; decide) fiveParts hn.symm hi _ rfl
  rw [hsl] at h
  exact ⟨s, s', ⟨hn, hi⟩, e, h⟩

example : ∃ (s s' s'' : SAP Nat) (rs : _), Stores s fiveParts ∧
    meshPass (fun (_ : Unit) _ _ _ p => .ok ((), p + 100, p % 2 == 0)) s () = .ok (s', ()) ∧ s'.pushAll [7, 8] = .ok (s'', rs) ∧
    s''.getNumberOfItems = s'.getNumberOfItems + 2 := by
  obtain ⟨s, hr, ⟨hn, hi⟩, hsl⟩ := stored 2 (by decide) 0 fiveParts
  obtain ⟨s', s'', rs, h⟩ := C15_push_after_pass_partial (fun p => (p + 100, p % 2 == 0)) hr [2, 3, 4, 5] 6 hn.symm hi rfl [7, 8]
  exact ⟨s, s', s'', rs, ⟨hn, hi⟩, h⟩

end

-- Three of five items are read back.
example : ∃ (s t : SAP Nat), Stores s fiveParts ∧ ∃ ps, (s.setNumberOfItems .Out 3).readLoop = .ok (t, ps) ∧ ps.flatten = [2, 3, 4] := by
  obtain ⟨s, hr, ⟨hn, hi⟩, hsl⟩ := stored 2 (by decide) 0 fiveParts
  have hcap : 3 ≤ s.getCapacity.2 := by
    have := C05_count_le_capacity hr
    rw [hn] at this
    have h : ((5 : Nat) : Int) ≤ (s.getCapacity.2 : Int) := by simpa [fiveParts] using this
    omega
  obtain ⟨items, t, ps, h1, h2, h3, h4⟩ := C06_read_back_partial hr 3 (by decide) hcap
  refine ⟨s, t, ⟨hn, hi⟩, ps, h3, h4.trans ?_⟩
  have get : ∀ (j : Nat) (hj : j < items.length) (hj' : j < fiveParts.length), items[j] = fiveParts[j] := by
    intro j hj hj'
    have := (h2 j hj).symm.trans (hi j hj')
    simpa using this
  match items, h1, get with
  | [a, b, c], h1, get =>
    have a0 := get 0 (by simp) (by decide)
    have a1 := get 1 (by simp) (by decide)
    have a2 := get 2 (by simp) (by decide)
    simp [fiveParts] at a0 a1 a2
    rw [a0, a1, a2]

section
open CppMover

-- The compiled mover and the Python mover, on the same five particles.
example : ∃ (s s' : CSAP Nat) (p p' : SAP Nat) (ys : List Nat), CStores s fiveParts ∧ Stores p fiveParts ∧
    Mover.meshPass demoAdv p () = .ok (p', ()) ∧ Stores p' ys ∧ cppPass (fun _ => false) demoAdv s () = .ok (s', ()) ∧ CStores s' ys ∧
    p'.getNumberOfItems = 3 := by
  obtain ⟨s, hu, hx, hsl⟩ := cstored 2 (by decide) 0 fiveParts
  obtain ⟨p, hr, hp, -⟩ := stored 2 (by decide) 0 fiveParts
  obtain ⟨p', e, h1, -⟩ := C11_survivors (fun p => (p + 100, p % 2 == 0)) hr (by rw [hp.1]; decide) fiveParts hp.1.symm hp.2
  have e' : Mover.meshPass demoAdv p () = .ok (p', ()) := e
  have h := C65_agrees_with_python (fun _ => false) demoAdv hu hr hx hp (by decide) (by decide) (fun _ _ => rfl) ()
  rw [e'] at h
  obtain ⟨s', ys, h2, h3, h4⟩ := h
  exact ⟨s, s', p, p', ys, hx, hp, e', h4, h2, h3, h1⟩

-- After a compiled step in which the last particle stays, particles can be added.
example : ∃ (s s' s'' : CSAP Nat) (r : _), CStores s fiveParts ∧ cppPass (fun _ => false) demoAdv s () = .ok (s', ()) ∧
    s'.pushArray 7 = .ok (s'', r) ∧ CStores s'' [102, 104, 106, 7] := by
  obtain ⟨s, hu, hx, hsl⟩ := cstored 2 (by decide) 0 fiveParts
  obtain ⟨p, hr, hp, -⟩ := stored 2 (by decide) 0 fiveParts
  obtain ⟨p', e, h1, -⟩ := C11_survivors (fun p => (p + 100, p % 2 == 0)) hr (by rw [hp.1]; decide) fiveParts hp.1.symm hp.2
  have e' : Mover.meshPass demoAdv p () = .ok (p', ()) := e
  have h := C65_agrees_with_python (fun _ => false) demoAdv hu hr hx hp (by decide) (by decide) (fun _ _ => rfl) ()
  rw [e'] at h
  obtain ⟨s', ys, h2, -⟩ := h
  have h := C65_push_after_pass_exact (fun _ => false) demoAdv hu hx (by decide) (by decide) (st := ()) (ys := [102, 104, 106]) rfl h2
  rw [if_neg (by rw [hsl]; decide)] at h
  obtain ⟨s'', h3, h4, -⟩ := h 7
  exact ⟨s, s', s'', _, hx, h2, h3, h4⟩

end

/-! ### Densities and diagnostics -/

section
open Fld

def morePop : List Dep := [(1, 7 / 4, 3)]

-- Two species deposit what all the particles in one species deposit, in any order.
example : ∃ (s t u w : SAP Dep), Stores s demoPop ∧ Stores t morePop ∧ Stores u (demoPop ++ morePop) ∧ Stores w (morePop ++ demoPop) ∧
    ∃ s' t' u' u'' w' v1 v2, accumulate demoAttrs demoCG demoDG (fun _ => 1) 2 s (some [0, 0, 0]) none = .ok (s', (some v1, none)) ∧
      accumulate demoAttrs demoCG demoDG (fun _ => 1) 2 t (some v1) none = .ok (t', (some v2, none)) ∧
      accumulate demoAttrs demoCG demoDG (fun _ => 1) 2 u (some [0, 0, 0]) none = .ok (u', (some v2, none)) ∧
      ∃ v', accumulate demoAttrs demoCG demoDG (fun _ => 1) 2 u (some [0, 0, 0]) none = .ok (u'', (some v', none)) ∧
      accumulate demoAttrs demoCG demoDG (fun _ => 1) 2 w (some [0, 0, 0]) none = .ok (w', (some v', none)) := by
  obtain ⟨s, hs, xs, -⟩ := stored 2 (by decide) ((0, 0, 0) : Dep) demoPop
  obtain ⟨t, ht, xt, -⟩ := stored 2 (by decide) ((0, 0, 0) : Dep) morePop
  obtain ⟨u, hu, xu, -⟩ := stored 2 (by decide) ((0, 0, 0) : Dep) (demoPop ++ morePop)
  obtain ⟨w, hw, xw, -⟩ := stored 2 (by decide) ((0, 0, 0) : Dep) (morePop ++ demoPop)
  have fits : ∀ p ∈ demoPop ++ morePop, Fits demoAttrs demoCG 3 p := by
    intro p hp
    rcases List.mem_append.1 hp with h | h
    · exact demo_fits p h
    · simp only [morePop, List.mem_singleton] at h
      subst h
      exact ⟨by decide, by decide, by decide⟩
  obtain ⟨s', t', u', v1, v2, h1, h2, h3⟩ := C33_additive hs ht hu xs xt xu (A := demoAttrs) (SD := demoCG) (SC := demoDG) (fun _ => 1) 2 [0, 0, 0] fits
  obtain ⟨u'', w', v', h4, h5⟩ := C33_order_independent hu hw xu xw List.perm_append_comm (A := demoAttrs) (SD := demoCG) (SC := demoDG) (fun _ => 1) 2
    [0, 0, 0] fits
  exact ⟨s, t, u, w, xs, xt, xu, xw, s', t', u', u'', w', v1, v2, h1, h2, h3, v', h4, h5⟩

example : ∃ (s t : SAP Dep) (s' t' : _) (v1 v2 : List ℚ), Stores s demoPop ∧ Stores t morePop ∧
    accumulate demoAttrs demoCG demoDG (fun k => 2 + k) 2 s none (some (setValues [7, 7] 0)) = .ok (s', (none, some v1)) ∧
    accumulate demoAttrs demoCG demoDG (fun k => 2 + k) 2 t none (some v1) = .ok (t', (none, some v2)) ∧ v2.getD 0 0 = (4 / 3 + 3) / 3 := by
  obtain ⟨s, hs, xs, -⟩ := stored 2 (by decide) ((0, 0, 0) : Dep) demoPop
  obtain ⟨t, ht, xt, -⟩ := stored 2 (by decide) ((0, 0, 0) : Dep) morePop
  obtain ⟨s', t', v1, v2, h1, h2, h3⟩ := C51_two_species_exact hs ht xs xt (A := demoAttrs) (SD := demoCG) (SC := demoDG) (fun k => (2 + k : ℚ)) 2 [7, 7]
    demo_cell (by decide +kernel) (by decide +kernel)
  refine ⟨s, t, s', t', v1, v2, xs, xt, h1, h2, ?_⟩
  exact (h3 1 (by decide)).trans (by decide +kernel)

end

section
open Species

example : ∃ (s t u : SAP (ℚ × ℚ)) (s' t' u' : _) (a b : ℚ), Stores s [(1, 2), (3, 4)] ∧ Stores t [(1 / 2, 6)] ∧ Stores u [(1 / 2, 6), (1, 2), (3, 4)] ∧
    getSpeciesNumber (·.1) s = .ok (s', a) ∧ getSpeciesNumber (·.1) t = .ok (t', b) ∧ getSpeciesNumber (·.1) u = .ok (u', a + b) := by
  obtain ⟨s, hs, xs, -⟩ := stored 2 (by decide) ((0, 0) : ℚ × ℚ) [(1, 2), (3, 4)]
  obtain ⟨t, ht, xt, -⟩ := stored 2 (by decide) ((0, 0) : ℚ × ℚ) [(1 / 2, 6)]
  obtain ⟨u, hu, xu, -⟩ := stored 2 (by decide) ((0, 0) : ℚ × ℚ) [(1 / 2, 6), (1, 2), (3, 4)]
  obtain ⟨s', t', u', a, b, -, -, h1, h2, h3, -⟩ := C44_additive (fun p : ℚ × ℚ => p.1) [fun p => p.2] 5 hs ht hu xs xt xu
    (List.perm_append_comm (l₁ := [(1 / 2, 6)]) (l₂ := [(1, 2), (3, 4)]))
  exact ⟨s, t, u, s', t', u', a, b, xs, xt, xu, h1, h2, h3⟩

end

/-! ### Trajectories -/

section
open Mover TrajSp

-- Five particles, three of them followed; the pass deletes one of those and moves the others in the container.
example : ∃ (s s' : SAP (Nat × Bool)) (t' : TrajSp (Int × Nat)) (ys : List (Nat × Bool)),
    Stores s [(10, false), (11, true), (12, false), (13, true), (15, true)] ∧
    meshPass (cadv demoCfg demoCore) s ((), create 3 (0, 0) (create 3 (0, 0) (create 3 (0, 0) empty 4) 1) 3) = .ok (s', ((), t')) ∧
    s'.getNumberOfItems = ys.length ∧ Tracked (fun p : Nat × Bool => p.2) Prod.fst [15, 11, 13] t' ys := by
  obtain ⟨s, hr, ⟨hn, hi⟩, -⟩ := stored 2 (by decide) ((0, false) : Nat × Bool) [(10, false), (11, true), (12, false), (13, true), (15, true)]
  have hk : Keeps demoCfg Prod.fst demoCore := by
    intro τ0 p τ1 p' evs h
    simp only [demoCore, Except.ok.injEq, Prod.mk.injEq] at h
    obtain ⟨-, rfl, rfl⟩ := h
    refine ⟨rfl, rfl, ?_⟩
    intro ev hev
    split at hev
    · simp only [List.mem_singleton] at hev; subst hev; rfl
    · cases hev
  have h := C17_pass_follows demoCfg Prod.fst demoCore hk (owner := [15, 11, 13]) (by decide) hr (by rw [hn]; decide) _ hn.symm hi ()
    (t := create 3 (0, 0) (create 3 (0, 0) (create 3 (0, 0) empty 4) 1) 3)
    ((((Run.refl _).tail (.create _ _)).tail (.create _ _)).tail (.create _ _)) ⟨by decide, by decide, by unfold Follows; decide⟩
  rw [show Spec.pass (coreAdv demoCfg demoCore) () 0 0 [(10, false), (11, true), (12, false), (13, true), (15, true)] =
    .ok ((), [(11, true), (12, false), (15, true)]) from rfl] at h
  obtain ⟨s', t', h1, h2, -, h3, -⟩ := h
  exact ⟨s, s', t', _, ⟨hn, hi⟩, h1, h2, h3⟩

end

/-! ### Meshes -/

section
open TimeLoop Dt.Topology

/-- The simulation `kiteCfg` with the limit of two crossings. -/
def kiteTwo : Cfg ℚ ℚ KitePart (Unit × Vec ℚ 2) (List (Vec ℚ 2)) :=
  { kiteCfg with
    move := pyMove (le_refl 2) kiteMesh (fun _ => kiteSink) 2 (1 / 2) (fun _ => -1) (fun _ f q => (f[q.cell.toNat]?).map (fun e => -e)) }

-- The simulation with two triangles ends normally after any number of steps, unless all particles are lost: two crossings suffice.
example (n : Nat) (h : Ideal.run kiteTwo 2 4 onKite (some kiteInit) [0, 0, 0, 0] n kiteIdeal ≠ .error .allLost) :
    ∃ st', run kiteTwo (some kiteInit) n (kiteState n) = .ok st' := by
  obtain ⟨M, e, key⟩ := C102_run (τ := Unit) (ρ := Nat) (V := ℚ) (φ := List (Vec ℚ 2)) (n := 2) kite_triangulation 0
    (marker := fun F => if F = 1 then 0 else 1) (by decide) (C102_plane kite_triangulation) (by decide)
  have hM : kiteMesh = M := by unfold kiteMesh; rw [e]; rfl
  obtain ⟨a1, a2, a3, a4, a5⟩ := kite_goodCfg
  obtain ⟨b1, b2, b3⟩ := kite_goodMesh
  refine (key (bc := fun _ => kiteSink) (fun _ => kite_sink M (kite_interior e)) (qom := fun _ => -1)
    (E := fun _ f q => (f[q.cell.toNat]?).map (fun e => -e))
    (cfg := kiteTwo) (by rw [← hM]; rfl) (by simp [kiteTwo, kiteCfg]) (onMesh := onKite) ?_
    ⟨a1, a2, a3, a4, a5⟩ ⟨b1, b2, b3⟩ n (init := some kiteInit) kiteInit_in (kite_fresh n) (by simp [kiteState]) (by simp [SourcesGood, kiteTwo, kiteCfg])
    (by simp [kiteInit, kiteIdeal]) h).resolve_right (by simp [kiteTwo, kiteCfg])
  rintro q ⟨⟨c, hc, hi, -⟩, -⟩
  simp only [kite, kiteCells, List.mem_cons, List.not_mem_nil, or_false] at hc
  rcases hc with rfl | rfl <;> simp [onKite, ← hi]

end

-- The cell between the two electrons.
example {F : Nat → ℚ} (h : IsField 1 .cartesian sheetX 3 (.num 0) 0 [(-1, 1 / 2), (-1, 9 / 4)] F) :
    F 1 = sheetField 1 (sheetX 0) (sheetX 3) 0 0 [(-1, 1 / 2), (-1, 9 / 4)] (3 / 2) :=
  C111_empty_cell one_pos sheet_grid (by decide +kernel) h (by decide) (by decide +kernel) (by decide +kernel) (by decide +kernel)

end Dt
