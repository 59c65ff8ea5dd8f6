import Verif.Spec.SheetEnergy
import Verif.Props.Shells

/-!
# The energy of charged sheets and shells (C105)
-/

set_option linter.unusedSectionVars false

namespace Dt
open Spec Poisson TimeLoop
variable {K V : Type} [Field K] [LinearOrder K] [IsStrictOrderedRing K] {τ ρ : Type}

section
variable {x : Nat → K} {N : Nat} {eps : K} {co : Coord} {v0 : Val K} {vN dt : K} {locate : K → Nat}

theorem below_in {a b y : K} (hab : a < b) (h1 : a ≤ y) (h2 : y ≤ b) : (b - a) * below a b y = b - y := by
  have hne : b - a ≠ 0 := by linarith [hab] |> fun h : 0 < b - a => h.ne'
  unfold below
  split
  · have : y = a := le_antisymm (by assumption) h1
    rw [this, mul_one]
  · split
    · have : y = b := le_antisymm h2 (by assumption)
      rw [this]; ring
    · field_simp

/-- The integral over a part of a cell. -/
theorem rise_in (hx : ∀ c < N, x c < x (c + 1)) (F : Nat → K) {c : Nat} (hc : c < N) {y y' : K}
    (h1 : x c ≤ y) (h2 : y ≤ x (c + 1)) (h1' : x c ≤ y') (h2' : y' ≤ x (c + 1)) :
    rise x N F y - rise x N F y' = F c * (y' - y) := by
  unfold rise
  rw [← Finset.sum_sub_distrib, Finset.sum_eq_single c]
  · have e := below_in (hx c hc) h1 h2
    have e' := below_in (hx c hc) h1' h2'
    rw [e, e']
    ring
  · intro d hd hne
    have hd := Finset.mem_range.1 hd
    have hxd := hx d hd
    have : below (x d) (x (d + 1)) y = below (x d) (x (d + 1)) y' := by
      unfold below
      rcases Nat.lt_or_ge d c with h | h
      · have h3 : x (d + 1) ≤ x c := grid_up hx h hc.le
        rw [if_neg (not_le.2 (by linarith : x d < y)), if_pos (by linarith : x (d + 1) ≤ y),
          if_neg (not_le.2 (by linarith : x d < y')), if_pos (by linarith : x (d + 1) ≤ y')]
      · have h3 : x (c + 1) ≤ x d := grid_up hx (by omega) hd.le
        rw [if_pos (by linarith), if_pos (by linarith)]
    rw [this, sub_self]
  · intro h
    exact absurd (Finset.mem_range.2 hc) h

theorem rise_add (F F' : Nat → K) (y : K) : rise x N (fun c => F c + F' c) y = rise x N F y + rise x N F' y := by
  unfold rise
  rw [← Finset.sum_add_distrib]
  refine Finset.sum_congr rfl fun c _ => ?_
  ring

theorem sum_rise (bs : List (Sheet K)) (F : Nat → K) : (bs.map (fun b => b.q * rise x N F b.y)).sum =
    ∑ c ∈ Finset.range N, (x (c + 1) - x c) * F c * ((bs.map (fun b => (b.q, b.y))).map (fun q => q.1 * below (x c) (x (c + 1)) q.2)).sum := by
  induction bs with
  | nil => simp
  | cons b bs ih =>
    simp only [List.map_cons, List.sum_cons]
    rw [ih]
    unfold rise
    rw [Finset.mul_sum, ← Finset.sum_add_distrib]
    refine Finset.sum_congr rfl fun c _ => ?_
    ring

/-- Charge times potential, in terms of the field. -/
theorem potential_flux {bs : List (Sheet K)} {F : Nat → K} {A : K} (G : Nat → K)
    (h : ∀ c < N, flux eps co x F c = A + ((bs.map (fun b => (b.q, b.y))).map (fun q => q.1 * below (x c) (x (c + 1)) q.2)).sum) :
    (bs.map (fun b => b.q * rise x N G b.y)).sum =
      ∑ c ∈ Finset.range N, (x (c + 1) - x c) * flux eps co x F c * G c - A * ∑ c ∈ Finset.range N, (x (c + 1) - x c) * G c := by
  rw [sum_rise, Finset.mul_sum, ← Finset.sum_sub_distrib]
  refine Finset.sum_congr rfl fun c hc => ?_
  rw [h c (Finset.mem_range.1 hc)]
  ring

/-- C105.  The energy in terms of the field alone: that of the motion and of the field, with the charge at the potential of the
upper end, less what the supply has given (`A` is the charge of the electrode at the lower end, if there is one). -/
theorem C105_field_energy {bs : List (Sheet K)} {F : Nat → K} (h : IsField eps co x N v0 vN (bs.map (fun b => (b.q, b.y))) F) :
    ∃ A : K, (∀ c < N, flux eps co x F c = A + (bs.map (fun b => b.q * below (x c) (x (c + 1)) b.y)).sum) ∧
      sheetEnergy eps co x N vN dt locate bs F =
        (bs.map (fun b => b.m / 2 * (b.u * b.kicked dt (fun y => F (locate y))))).sum + lineEnergy eps co x N F +
        vN * (bs.map (·.q)).sum - supplied vN v0 A := by
  obtain ⟨A, h1, h2, h3⟩ := h
  refine ⟨A, fun c hc => ?_, ?_⟩
  · rw [h1 c hc, List.map_map]
    rfl
  have key := potential_flux F h1
  have hs : (bs.map (fun b => b.m / 2 * (b.u * b.kicked dt (fun y => F (locate y))) + b.q * (vN + rise x N F b.y))).sum =
      (bs.map (fun b => b.m / 2 * (b.u * b.kicked dt (fun y => F (locate y))))).sum + vN * (bs.map (·.q)).sum +
        (bs.map (fun b => b.q * rise x N F b.y)).sum := by
    clear key h1 h2 h3
    induction bs with
    | nil => simp
    | cons b bs ih =>
      simp only [List.map_cons, List.sum_cons]
      rw [ih]
      ring
  have hA : A * ∑ c ∈ Finset.range N, (x (c + 1) - x c) * F c = supplied vN v0 A := by
    cases v0 with
    | unset => rw [h2 rfl, zero_mul]; rfl
    | num v => rw [h3 v rfl]; rfl
  unfold sheetEnergy lineEnergy
  rw [hs, key, hA]
  ring

/-- C105.  The energy in a leapfrog step of all particles in their own field changes by the sum over the particles of half the charge
times (sum of the fields before and after, at the places before and after, times the way, less the integral of this sum of
fields over the way). -/
theorem C105_balance {bs bs' : List (Sheet K)} {F F' : Nat → K}
    (h : IsField eps co x N v0 vN (bs.map (fun b => (b.q, b.y))) F) (h' : IsField eps co x N v0 vN (bs'.map (fun b => (b.q, b.y))) F')
    (hq : ∀ b ∈ bs, b.qom * b.m = b.q) (hmv : List.Forall₂ (Sheet.Moves dt (fun y => F (locate y))) bs bs') :
    sheetEnergy eps co x N vN dt locate bs' F' - sheetEnergy eps co x N vN dt locate bs F =
      (List.zipWith (fun b b' => b.q / 2 * ((F (locate b.y) + F' (locate b'.y)) * (b'.y - b.y) -
        (rise x N (fun c => F c + F' c) b.y - rise x N (fun c => F c + F' c) b'.y))) bs bs').sum := by
  obtain ⟨A, h1, h2, h3⟩ := h
  obtain ⟨A', h1', h2', h3'⟩ := h'
  -- the fields
  have k1 := potential_flux F h1
  have k2 := potential_flux F' h1
  have k1' := potential_flux F h1'
  have k2' := potential_flux F' h1'
  have hsym : ∑ c ∈ Finset.range N, (x (c + 1) - x c) * flux eps co x F c * F' c =
      ∑ c ∈ Finset.range N, (x (c + 1) - x c) * flux eps co x F' c * F c := by
    refine Finset.sum_congr rfl fun c _ => ?_
    unfold flux
    ring
  have hV : A * ∑ c ∈ Finset.range N, (x (c + 1) - x c) * F' c = A * ∑ c ∈ Finset.range N, (x (c + 1) - x c) * F c ∧
      A' * ∑ c ∈ Finset.range N, (x (c + 1) - x c) * F' c = A' * ∑ c ∈ Finset.range N, (x (c + 1) - x c) * F c := by
    cases v0 with
    | unset => rw [h2 rfl, h2' rfl, zero_mul, zero_mul]; exact ⟨rfl, rfl⟩
    | num v => rw [h3 v rfl, h3' v rfl]; exact ⟨rfl, rfl⟩
  have hpot : (bs'.map (fun b => b.q * rise x N F' b.y)).sum - lineEnergy eps co x N F' -
      ((bs.map (fun b => b.q * rise x N F b.y)).sum - lineEnergy eps co x N F) =
      ((bs'.map (fun b => b.q * rise x N (fun c => F c + F' c) b.y)).sum - (bs.map (fun b => b.q * rise x N (fun c => F c + F' c) b.y)).sum) / 2 := by
    have hadd : ∀ l : List (Sheet K), (l.map (fun b => b.q * rise x N (fun c => F c + F' c) b.y)).sum =
        (l.map (fun b => b.q * rise x N F b.y)).sum + (l.map (fun b => b.q * rise x N F' b.y)).sum := by
      intro l
      rw [← List.sum_map_add]
      congr 1
      refine List.map_congr_left fun b _ => ?_
      rw [rise_add]
      ring
    rw [hadd, hadd, k1, k2, k1', k2', hsym]
    unfold lineEnergy
    linear_combination (-1 / 2) * hV.1 + (-1 / 2) * hV.2
  -- the particles
  have hkin : ∀ l l' : List (Sheet K), (∀ b ∈ l, b.qom * b.m = b.q) → List.Forall₂ (Sheet.Moves dt (fun y => F (locate y))) l l' →
      (l'.map (fun b => b.m / 2 * (b.u * b.kicked dt (fun y => F' (locate y))) + b.q * (vN + rise x N F' b.y))).sum -
        (l'.map (fun b => b.q * rise x N F' b.y)).sum -
      ((l.map (fun b => b.m / 2 * (b.u * b.kicked dt (fun y => F (locate y))) + b.q * (vN + rise x N F b.y))).sum -
        (l.map (fun b => b.q * rise x N F b.y)).sum) +
      ((l'.map (fun b => b.q * rise x N (fun c => F c + F' c) b.y)).sum - (l.map (fun b => b.q * rise x N (fun c => F c + F' c) b.y)).sum) / 2 =
      (List.zipWith (fun b b' => b.q / 2 * ((F (locate b.y) + F' (locate b'.y)) * (b'.y - b.y) -
        (rise x N (fun c => F c + F' c) b.y - rise x N (fun c => F c + F' c) b'.y))) l l').sum := by
    intro l l' hq h
    induction h with
    | nil => simp
    | @cons b b' l l' hb _ ih =>
      simp only [List.map_cons, List.sum_cons, List.zipWith_cons_cons]
      rw [← ih (fun b hb => hq b (by simp [hb]))]
      obtain ⟨e1, e2, e3, e4⟩ := hb
      have hqb := hq b (by simp)
      rw [e1, e2]
      rcases e4 with ⟨e5, e6⟩ | ⟨e5, e6, e7⟩
      · have e7 : b'.kicked dt (fun y => F' (locate y)) = b'.u + b.qom * dt * F' (locate b'.y) := by
          unfold Sheet.kicked
          rw [e3]
        have e8 : b.u = b'.u - b.qom * dt * F (locate b.y) := by
          rw [e5]
          unfold Sheet.kicked
          ring
        have e9 : b'.y - b.y = dt * b'.u := by rw [e6]; ring
        rw [e9, e7, ← e5, e8, ← hqb]
        ring
      · rw [e6, e7]
        unfold Sheet.kicked
        rw [e3, e6, e7, e5]
        rw [e5] at hqb
        linear_combination (b.u * dt * (F' (locate b.y) - F (locate b.y)) / 2) * hqb
  have := hkin bs bs' hq hmv
  unfold sheetEnergy
  linear_combination hpot + this

/-- C105.  If all particles stay between their vertices the energy is the same. -/
theorem C105_step (hg : Grid co x N) {bs bs' : List (Sheet K)} {F F' : Nat → K}
    (h : IsField eps co x N v0 vN (bs.map (fun b => (b.q, b.y))) F) (h' : IsField eps co x N v0 vN (bs'.map (fun b => (b.q, b.y))) F')
    (hloc : ∀ b, b ∈ bs ∨ b ∈ bs' → locate b.y < N ∧ x (locate b.y) ≤ b.y ∧ b.y ≤ x (locate b.y + 1))
    (hq : ∀ b ∈ bs, b.qom * b.m = b.q)
    (hmv : List.Forall₂ (fun b b' => Sheet.Moves dt (fun y => F (locate y)) b b' ∧ locate b'.y = locate b.y) bs bs') :
    sheetEnergy eps co x N vN dt locate bs' F' = sheetEnergy eps co x N vN dt locate bs F := by
  have key := C105_balance h h' hq (hmv.imp fun _ _ h => h.1)
  have hz : ∀ l l' : List (Sheet K), (∀ b ∈ l, b ∈ bs) → (∀ b ∈ l', b ∈ bs') →
      List.Forall₂ (fun b b' => Sheet.Moves dt (fun y => F (locate y)) b b' ∧ locate b'.y = locate b.y) l l' →
      (List.zipWith (fun b b' => b.q / 2 * ((F (locate b.y) + F' (locate b'.y)) * (b'.y - b.y) -
        (rise x N (fun c => F c + F' c) b.y - rise x N (fun c => F c + F' c) b'.y))) l l').sum = 0 := by
    intro l l' m1 m2 h
    induction h with
    | nil => simp
    | @cons b b' l l' hbb _ ih =>
      obtain ⟨g1, g2, g3⟩ := hloc b (.inl (m1 b (by simp)))
      obtain ⟨g1', g2', g3'⟩ := hloc b' (.inr (m2 b' (by simp)))
      rw [hbb.2] at g2' g3'
      rw [List.zipWith_cons_cons, List.sum_cons, ih (fun b hb => m1 b (by simp [hb])) (fun b hb => m2 b (by simp [hb])),
        rise_in hg.lt _ g1 g2 g3 g2' g3', hbb.2]
      ring
  rw [hz bs bs' (fun b hb => hb) (fun b hb => hb) hmv] at key
  exact sub_eq_zero.1 key


/-- There is a field, whatever the charges. -/
theorem C105_field (he : 0 < eps) (hg : Grid co x N) (charges : List (K × K)) : ∃ F, IsField eps co x N v0 vN charges F := by
  have hk : ∀ c < N, 0 < eps * area co (x c) (x (c + 1)) := fun c hc => mul_pos he (area_pos hg hc)
  have hfl : ∀ A : K, ∀ c < N, flux eps co x (fun c => (A + (charges.map (fun q => q.1 * below (x c) (x (c + 1)) q.2)).sum) /
      (eps * area co (x c) (x (c + 1)))) c = A + (charges.map (fun q => q.1 * below (x c) (x (c + 1)) q.2)).sum := by
    intro A c hc
    unfold flux
    rw [← mul_assoc, mul_div_cancel₀ _ (hk c hc).ne']
  cases v0 with
  | unset => exact ⟨_, 0, hfl 0, fun _ => rfl, fun v hv => by cases hv⟩
  | num v =>
    let S := ∑ c ∈ Finset.range N, (x (c + 1) - x c) / (eps * area co (x c) (x (c + 1)))
    let T := ∑ c ∈ Finset.range N, (x (c + 1) - x c) * ((charges.map (fun q => q.1 * below (x c) (x (c + 1)) q.2)).sum /
      (eps * area co (x c) (x (c + 1))))
    have hS : 0 < S := by
      refine Finset.sum_pos (fun c hc => ?_) ⟨0, Finset.mem_range.2 hg.pos⟩
      have hc := Finset.mem_range.1 hc
      exact div_pos (by linarith [hg.lt c hc]) (hk c hc)
    refine ⟨_, (v - vN - T) / S, hfl _, (fun h => by cases h), fun w hw => ?_⟩
    cases hw
    have : ∑ c ∈ Finset.range N, (x (c + 1) - x c) * (((v - vN - T) / S + (charges.map (fun q => q.1 * below (x c) (x (c + 1)) q.2)).sum) /
        (eps * area co (x c) (x (c + 1)))) = (v - vN - T) / S * S + T := by
      rw [Finset.mul_sum, ← Finset.sum_add_distrib]
      refine Finset.sum_congr rfl fun c _ => ?_
      ring
    rw [this, div_mul_cancel₀ _ hS.ne']
    ring

theorem sheetEnergy_congr {bs : List (Sheet K)} {F F' : Nat → K} (h : ∀ c < N, F c = F' c) (hloc : ∀ b ∈ bs, locate b.y < N) :
    sheetEnergy eps co x N vN dt locate bs F = sheetEnergy eps co x N vN dt locate bs F' := by
  have hr : ∀ y, rise x N F y = rise x N F' y := fun y => Finset.sum_congr rfl fun c hc => by rw [h c (Finset.mem_range.1 hc)]
  have hl : lineEnergy eps co x N F = lineEnergy eps co x N F' := by
    unfold lineEnergy
    congr 1
    refine Finset.sum_congr rfl fun c hc => ?_
    unfold flux
    rw [h c (Finset.mem_range.1 hc)]
  unfold sheetEnergy
  rw [hl]
  congr 2
  refine List.map_congr_left fun b hb => ?_
  dsimp only [Sheet.kicked]
  rw [hr, h _ (hloc b hb)]

end

section
variable {x : Nat → K} {N : Nat} {eps : K} {co : Coord} {v0 : Val K} {vN : K} {locate : K → Nat} {L : String → Bool}
  {qom : String → K} {σ : Type}

theorem sheets_charges (weight : Part K 1 ρ → K) (factor : K) (qom : String → K) (pops : List (Pop K V (Part K 1 ρ))) :
    (sheetsOf weight factor qom pops).map (fun b => (b.q, b.y)) = chargesOf weight factor pops := by
  unfold sheetsOf chargesOf
  rw [List.map_flatMap]
  simp only [List.map_map]
  rfl

theorem mem_sheets {weight : Part K 1 ρ → K} {factor : K} {qom : String → K} {pops : List (Pop K V (Part K 1 ρ))} {b : Sheet K}
    (h : b ∈ sheetsOf weight factor qom pops) : ∃ p ∈ pops, ∃ q ∈ p.st.items,
      b = ⟨p.charge * weight q * factor, p.mass * weight q * factor, qom p.name, q.x 0, q.u 0⟩ := by
  obtain ⟨p, hp, h⟩ := List.mem_flatMap.1 h
  obtain ⟨q, hq, rfl⟩ := List.mem_map.1 h
  exact ⟨p, hp, q, hq, rfl⟩

/-- All particles are between vertices. -/
def Placed (x : Nat → K) (N : Nat) (locate : K → Nat) (j : Ideal K V (Part K 1 ρ) σ) : Prop :=
  ∀ pop ∈ j.pops, ∀ q ∈ pop.st.items, locate (q.x 0) < N ∧ x (locate (q.x 0)) ≤ q.x 0 ∧ q.x 0 ≤ x (locate (q.x 0) + 1)

/-- C105.  Every state has exactly one energy. -/
theorem C105_unique (he : 0 < eps) (hg : Grid co x N) {φ : Type} {cfg : Cfg K V (Part K 1 ρ) σ φ} {j : Ideal K V (Part K 1 ρ) σ}
    (hj : ∀ pop ∈ j.pops, ∀ q ∈ pop.st.items, locate (q.x 0) < N) :
    ∃! W, LineEnergyOf eps co x N v0 vN qom locate cfg j W := by
  obtain ⟨F, hF⟩ := C105_field (v0 := v0) (vN := vN) he hg (chargesOf cfg.A.weight (cfg.factor.getD 1) j.pops)
  refine ⟨_, ⟨F, hF, rfl⟩, ?_⟩
  rintro W ⟨F', hF', rfl⟩
  refine sheetEnergy_congr (fun c hc => C93_field_unique he hg hF' hF c hc) fun b hb => ?_
  obtain ⟨p, hp, q, hq, rfl⟩ := mem_sheets hb
  exact hj p hp q hq

/-- C105.  In a step of a simulation in which no particle is made, lost, reflected, or passes a vertex, the energy is kept. -/
theorem C105_calm (he : 0 < eps) (hg : Grid co x N) {φ : Type} {cfg : Cfg K V (Part K 1 ρ) σ φ} {sl : Nat} {i j : Ideal K V (Part K 1 ρ) σ}
    (hwt : ∀ q q', q.rest = q'.rest → cfg.A.weight q = cfg.A.weight q')
    (h : FieldStep eps co x N v0 vN L qom locate cfg sl i j) (hi : Placed x N locate i) (hj : Placed x N locate j)
    (hqm : ∀ p ∈ i.pops, qom p.name * p.mass = p.charge) (hcalm : LineCalm (x 0) L locate cfg sl i j) (W : K) :
    LineEnergyOf eps co x N v0 vN qom locate cfg i W ↔ LineEnergyOf eps co x N v0 vN qom locate cfg j W := by
  obtain ⟨-, -, F, hF, hpops⟩ := h
  obtain ⟨F', hF'⟩ := C105_field (v0 := v0) (vN := vN) he hg (chargesOf cfg.A.weight (cfg.factor.getD 1) j.pops)
  have hmv : List.Forall₂ (fun b b' => Sheet.Moves cfg.dt (fun y => F (locate y)) b b' ∧ locate b'.y = locate b.y)
      (sheetsOf cfg.A.weight (cfg.factor.getD 1) qom i.pops) (sheetsOf cfg.A.weight (cfg.factor.getD 1) qom j.pops) := by
    unfold LineCalm at hcalm
    clear hi hj hqm hF hF'
    generalize i.pops = l at hpops hcalm
    generalize j.pops = l' at hpops hcalm
    unfold sheetsOf
    induction hpops with
    | nil => exact .nil
    | @cons p p' ps ps' hpp _ ih =>
      rw [List.forall₂_cons] at hcalm
      obtain ⟨⟨hmade, hst⟩, hcalm⟩ := hcalm
      obtain ⟨e1, e2, e3, e4, e5⟩ := hpp
      rw [List.flatMap_cons, List.flatMap_cons]
      refine List.rel_append ?_ (ih hcalm)
      rw [hmade, List.map_nil, List.append_nil] at e5
      rw [e1, e2, e3]
      by_cases hq0 : p.charge = 0
      · rw [if_pos hq0] at e5
        clear hmade
        generalize p.st.items = xs at hst e5
        generalize p'.st.items = ys at hst e5
        induction hst with
        | nil => exact .nil
        | @cons q q' xs ys _ _ ih3 =>
          simp only [List.map_cons, List.cons.injEq] at e5
          simp only [List.map_cons]
          refine .cons ?_ (ih3 e5.2)
          have hk := e5.1
          simp only [kin, Prod.mk.injEq] at hk
          obtain ⟨k1, k2, k3⟩ := hk
          refine ⟨⟨?_, ?_, rfl, .inr ⟨?_, ?_, ?_⟩⟩, ?_⟩
          · dsimp only; rw [hwt q' q k3]
          · dsimp only; rw [hwt q' q k3]
          · dsimp only; rw [hq0]; ring
          · dsimp only; rw [k2]
          · dsimp only; rw [k1]
          · dsimp only; rw [k1]
      · rw [if_neg hq0] at e5
        have hlen : p'.st.items.length = p.st.items.length := hst.length_eq.symm
        have hflt := congrArg List.length e5
        rw [List.length_map, hlen, ← List.length_map (f := kin), ← List.length_map (as := p.st.items.map kin)
          (f := walledLeap (x 0) (L p.name) cfg.dt (qom p.name) (fun y => F (locate y)))] at hflt
        rw [List.filter_eq_self.2 (List.length_filter_eq_length_iff.1 hflt.symm)] at e5
        clear hmade hflt hlen
        generalize p.st.items = xs at hst e5
        generalize p'.st.items = ys at hst e5
        induction hst with
        | nil => exact .nil
        | @cons q q' xs ys hc0 _ ih3 =>
          simp only [List.map_cons, List.cons.injEq] at e5
          simp only [List.map_cons]
          refine .cons ?_ (ih3 e5.2)
          obtain ⟨c1, c2, c3⟩ := hc0 hq0
          have hk := e5.1
          have hk2 : kin q' = leap cfg.dt (qom p.name) (some (fun _ => F (locate (q.x 0)))) (kin q) := by
            rw [hk]
            unfold walledLeap
            dsimp only
            split
            · rename_i hL
              unfold folded
              rw [if_neg]
              · rfl
              intro hlt
              rw [walledLeap] at hk
              rw [if_pos hL, folded, if_pos hlt] at hk
              simp only [kin, leap, mirrored, Option.getD_some, Prod.mk.injEq] at hk
              obtain ⟨k1, k2, -⟩ := hk
              have k1 := congrFun k1 0
              have k2 := congrFun k2 0
              have c3 := c3 hL
              simp only [Pi.add_apply, Pi.smul_apply, Pi.neg_apply, smul_eq_mul] at k1 k2
              rw [c2, k2] at k1
              linarith
            · rfl
          simp only [kin, leap, Option.getD_some, Prod.mk.injEq] at hk2
          obtain ⟨k1, k2, k3⟩ := hk2
          refine ⟨⟨?_, ?_, rfl, .inl ⟨?_, c2⟩⟩, c1⟩
          · dsimp only; rw [hwt q' q k3]
          · dsimp only; rw [hwt q' q k3]
          · dsimp only [Sheet.kicked]
            rw [k2]
            simp
  have hWW := C105_step (eps := eps) (co := co) (v0 := v0) (vN := vN) hg (by rw [sheets_charges]; exact hF) (by rw [sheets_charges]; exact hF') (by
      rintro b (hb | hb) <;> obtain ⟨p, hp, q, hq, rfl⟩ := mem_sheets hb
      · exact hi p hp q hq
      · exact hj p hp q hq) (by
      intro b hb
      obtain ⟨p, hp, q, hq, rfl⟩ := mem_sheets hb
      dsimp only
      rw [← hqm p hp]
      ring) hmv
  have hu := C105_unique (v0 := v0) (vN := vN) (qom := qom) (cfg := cfg) he hg (fun pop hp q hq => (hi pop hp q hq).1)
  have hu' := C105_unique (v0 := v0) (vN := vN) (qom := qom) (cfg := cfg) he hg (fun pop hp q hq => (hj pop hp q hq).1)
  have h1 : LineEnergyOf eps co x N v0 vN qom locate cfg i _ := ⟨F, hF, rfl⟩
  have h2 : LineEnergyOf eps co x N v0 vN qom locate cfg j _ := ⟨F', hF', rfl⟩
  constructor
  · intro h
    rw [hu.unique h h1, ← hWW]
    exact h2
  · intro h
    rw [hu'.unique h h2, hWW]
    exact h1

end

section
open Mark Radial
variable {rmin rmax eps : K} {pw : K → K} {nr : Nat} {v0 : Val K} {vN : K} {L : String → Bool}

/-- C105.  The spherical example (the setting of C93): each state of a simulation has exactly one energy, and from a state to the
next it is kept if no particle is made, lost, reflected, or passes a vertex, and `qom` is charge over mass. -/
theorem C105_sphere (hpw : PowLike pw) (h0 : 0 ≤ rmin) (hrr : rmin < rmax) (hnr : 0 < nr)
    {fd pd : Dict} (hfd : GoodTags fd) (hpd : GoodTags pd) {fa fb pa pb : Int}
    (h1 : ("rmin", fa) ∈ fd) (h2 : ("rmax", fb) ∈ fd) (h3 : ("rmin", pa) ∈ pd) (h4 : ("rmax", pb) ∈ pd)
    {ms : Mark.Marks Nat} (e : createRadial (K := K) nr (some fd) (some pd) = .ok ms)
    {cb : Callbacks (τ × BCall K 1 1 ρ → Except Err (τ × Part K 1 ρ))} {species : List String}
    {fl fr : String → τ × BCall K 1 1 ρ → Except Err (τ × Part K 1 ρ)}
    (hl : ∀ sn ∈ species, Provided cb "rmin" sn (fl sn)) (hr : ∀ sn ∈ species, Provided cb "rmax" sn (fr sn))
    (al : ∀ sn ∈ species, ActsLike (L sn) (fl sn)) (ar : ∀ sn ∈ species, ActsLike false (fr sn))
    (hcell : ∀ name f, cb name = some f → ∀ a st' q', f a = .ok (st', q') → q'.cell = a.2.part.cell)
    (he : 0 < eps) {dd : List (String × Int × Val K)} (hd : Given .spherical dd fa fb v0 vN) :
    ∃ fm pm s, ms = ⟨some fm, some pm⟩ ∧ create eps .spherical (vertex rmin rmax pw nr) nr fm dd = .ok s ∧
      ∀ {maxCross : Nat} {qom : String → K} {locate : K → Nat}, Locates (vertex rmin rmax pw nr) nr locate →
      ∀ {cfg : Cfg K V (Part K 1 ρ) (τ × Vec K 1) (List K)},
        cfg.move = pyMove (le_refl 1) (lineMesh (vertex rmin rmax pw nr) nr (onLine nr pm)) (namedBC cb pd species) maxCross cfg.dt qom
          (fun _ f q => some (fun _ => -(f.getD (locate (q.x 0)) 0))) →
        (∀ q q', q.rest = q'.rest → cfg.A.weight q = cfg.A.weight q') →
        SourcesPresent (le_refl 1) (lineMesh (vertex rmin rmax pw nr) nr (onLine nr pm)) cfg.sources →
        ∀ {d : Nat → Nat} {C sl : Nat}, Electro cfg (vertex rmin rmax pw nr) nr fm s d C → GoodCfg cfg →
        ∀ {z : Species.HRow K} (n : Nat) {init : Option (List (String × List (Part K 1 ρ)))},
        InitPresent (le_refl 1) (lineMesh (vertex rmin rmax pw nr) nr (onLine nr pm)) init →
        ∀ {st : State K V (Part K 1 ρ) (τ × Vec K 1) (List K)} {i : Ideal K V (Part K 1 ρ) (τ × Vec K 1)} {b : List K},
        Fresh sl (nr + 1) C n z st i b → (i.pops.map (·.name)).Nodup → (st.writer = none → cfg.partEvery = none) →
        ∀ {i0 : Ideal K V (Part K 1 ρ) (τ × Vec K 1)} {is : List (Ideal K V (Part K 1 ρ) (τ × Vec K 1))},
          Ideal.run cfg sl (nr + 1) (inLine (vertex rmin rmax pw nr) nr) init b n i = .ok (i0, is) →
          (∀ j ∈ i0 :: is, ∃! W, LineEnergyOf eps .spherical (vertex rmin rmax pw nr) nr v0 vN qom locate cfg j W) ∧
          (i0 :: is).IsChain (fun i j => (∀ p ∈ i.pops, qom p.name * p.mass = p.charge) →
            LineCalm rmin L locate cfg sl i j → ∀ W,
              LineEnergyOf eps .spherical (vertex rmin rmax pw nr) nr v0 vN qom locate cfg i W ↔
              LineEnergyOf eps .spherical (vertex rmin rmax pw nr) nr v0 vN qom locate cfg j W) := by
  obtain ⟨fm, pm, s, hms, hs, key⟩ := C93_sphere (V := V) (L := L) hpw h0 hrr hnr hfd hpd h1 h2 h3 h4 e hl hr al ar hcell he hd
  obtain ⟨x0, -, vlt, -⟩ := C49_radial_mesh hpw hrr hnr
  have hg : Grid .spherical (vertex rmin rmax pw nr) nr := ⟨hnr, vlt, fun _ => by rw [x0]; exact h0⟩
  refine ⟨fm, pm, s, hms, hs, ?_⟩
  intro maxCross qom locate hloc cfg hmove hwt hsrc d C sl hel hgc z n init hinit st i b hf hn hnone i0 is hrun
  obtain ⟨hch, hpl, -⟩ := (key hloc hmove hsrc hel hgc n hinit hf hn hnone).1 hrun
  refine ⟨fun j hj => C105_unique he hg (fun pop hp q hq => (hpl j hj pop hp q hq).1), ?_⟩
  clear hrun
  generalize i0 :: is = Ls at hch hpl
  induction Ls with
  | nil => exact .nil
  | cons a Ls ih =>
    cases Ls with
    | nil => simp
    | cons a2 Ls =>
      rw [List.isChain_cons_cons] at hch ⊢
      refine ⟨fun hqm hcalm W => ?_, ih hch.2 (fun j hj => hpl j (by simp [hj]))⟩
      exact C105_calm he hg hwt hch.1 (hpl a (by simp)) (hpl a2 (by simp)) hqm (by rw [x0]; exact hcalm) W

end

/-! ### Two shells in a sphere -/

section Demo
open Mark Radial

def quietInit : List (String × List SimPart) := [("e", [demoPart (1 / 4) (1 / 2) 0 false, demoPart (5 / 4) (1 / 2) 1 false])]

abbrev quietRun (n : Nat) : Except Fault (Ideal ℚ ℚ SimPart (Unit × Vec ℚ 1) × List (Ideal ℚ ℚ SimPart (Unit × Vec ℚ 1))) :=
  Ideal.run ballCfg 2 3 (inLine ballX 2) (some quietInit) [0, 0, 0] n simIdeal


/-- The field, and the energy, if the lower end is open. -/
def openField {K : Type} [Field K] [LinearOrder K] (eps : K) (co : Coord) (x : Nat → K) (charges : List (K × K)) (c : Nat) : K :=
  (charges.map (fun q => q.1 * below (x c) (x (c + 1)) q.2)).sum / (eps * area co (x c) (x (c + 1)))

theorem openField_is {x : Nat → K} {N : Nat} {eps : K} {co : Coord} {vN : K} (he : 0 < eps) (hg : Grid co x N)
    (charges : List (K × K)) : IsField eps co x N .unset vN charges (openField eps co x charges) := by
  refine ⟨0, fun c hc => ?_, fun _ => rfl, fun v hv => by cases hv⟩
  unfold flux openField
  rw [← mul_assoc, mul_div_cancel₀ _ (mul_pos he (area_pos hg hc)).ne', zero_add]

def ballEnergy (j : Ideal ℚ ℚ SimPart (Unit × Vec ℚ 1)) : ℚ :=
  sheetEnergy 1 .spherical ballX 2 5 ballCfg.dt ballLocate (sheetsOf ballCfg.A.weight (ballCfg.factor.getD 1) (fun _ => -1) j.pops)
    (openField 1 .spherical ballX (chargesOf ballCfg.A.weight (ballCfg.factor.getD 1) j.pops))

theorem ball_grid : Grid .spherical ballX 2 := ⟨by decide, by decide +kernel, fun _ => by decide +kernel⟩

theorem ballEnergy_iff (j : Ideal ℚ ℚ SimPart (Unit × Vec ℚ 1)) (W : ℚ) :
    LineEnergyOf 1 .spherical ballX 2 .unset 5 (fun _ => -1) ballLocate ballCfg j W ↔ W = ballEnergy j := by
  have h : LineEnergyOf 1 .spherical ballX 2 .unset 5 (fun _ => -1) ballLocate ballCfg j (ballEnergy j) :=
    ⟨_, openField_is one_pos ball_grid _, rfl⟩
  constructor
  · intro h'
    refine (C105_unique one_pos ball_grid fun pop _ q _ => ?_).unique h' h
    unfold ballLocate
    split <;> decide
  · rintro rfl
    exact h

/-- Two shells; in the second step the inner one passes the vertex at 1. -/
theorem quiet_view : ballView (quietRun 2) = some [[(1 / 4, 1 / 2), (5 / 4, 1 / 2)], [(41 / 64, 25 / 32), (99 / 64, 19 / 32)],
    [(1125 / 1024, 469 / 512), (13495 / 7168, 2407 / 3584)]] := by decide +kernel

/-- C105.  When a particle passes a vertex the energy is not kept: it is the same after the first step, and another after the
second. -/
theorem C105_crossing : ∃ i0 i1 i2 W, quietRun 2 = .ok (i0, [i1, i2]) ∧
    LineEnergyOf 1 .spherical ballX 2 .unset 5 (fun _ => -1) ballLocate ballCfg i0 W ∧
    LineEnergyOf 1 .spherical ballX 2 .unset 5 (fun _ => -1) ballLocate ballCfg i1 W ∧
    ¬ LineEnergyOf 1 .spherical ballX 2 .unset 5 (fun _ => -1) ballLocate ballCfg i2 W := by
  have h : (quietRun 2).toOption.map (fun r => (r.1 :: r.2).map ballEnergy) =
      some [-297 / 128, -297 / 128, -118894143 / 51380224] := by decide +kernel
  cases hr : quietRun 2 with
  | error f => rw [hr] at h; cases h
  | ok r =>
    obtain ⟨i0, is⟩ := r
    rw [hr] at h
    simp only [Except.toOption, Option.map_some, Option.some.injEq, List.map_cons] at h
    rcases is with _ | ⟨i1, _ | ⟨i2, _ | ⟨i3, is⟩⟩⟩
    · simp at h
    · simp at h
    · simp only [List.map_cons, List.map_nil, List.cons.injEq, and_true] at h
      obtain ⟨h0, h1, h2⟩ := h
      refine ⟨i0, i1, i2, -297 / 128, rfl, ?_, ?_, ?_⟩ <;> rw [ballEnergy_iff]
      · exact h0.symm
      · exact h1.symm
      · rw [h2]; decide +kernel
    · simp at h

/-- What the example looks at. -/
def quietLook (i : Ideal ℚ ℚ SimPart (Unit × Vec ℚ 1)) : List ((ℚ × ℚ) × List (ℚ × ℚ)) :=
  i.pops.map (fun p => ((p.mass, p.charge), p.st.items.map (fun q => (q.x 0, q.u 0))))

/-- The run of the program in this case has an end, each state has one energy, and the first step is calm. -/
example : ∃ i0 i1 i2, quietRun 2 = .ok (i0, [i1, i2]) ∧ LineCalm 0 (fun _ => true) ballLocate ballCfg 2 i0 i1 ∧
    (∀ p ∈ i0.pops, (fun _ : String => (-1 : ℚ)) p.name * p.mass = p.charge) := by
  have h : (quietRun 2).toOption.map (fun r => (r.1 :: r.2).map quietLook) =
      some [[((1, -1), [(1 / 4, 1 / 2), (5 / 4, 1 / 2)])], [((1, -1), [(41 / 64, 25 / 32), (99 / 64, 19 / 32)])],
        [((1, -1), [(1125 / 1024, 469 / 512), (13495 / 7168, 2407 / 3584)])]] := by decide +kernel
  have hn : (quietRun 2).toOption.map (fun r => r.1.pops.map (·.name)) = some ["e"] := by decide +kernel
  have hm : (quietRun 2).toOption.map (fun r => (r.1.made ballCfg 2 "e").length) = some 0 := by decide +kernel
  cases hr : quietRun 2 with
  | error f => rw [hr] at h; cases h
  | ok r =>
    obtain ⟨i0, is⟩ := r
    rw [hr] at h hm hn
    simp only [Except.toOption, Option.map_some, Option.some.injEq, List.map_cons, List.length_eq_zero_iff] at h hm hn
    rcases is with _ | ⟨i1, _ | ⟨i2, _ | ⟨i3, is⟩⟩⟩
    · simp at h
    · simp at h
    · simp only [List.map_cons, List.map_nil, List.cons.injEq, and_true] at h
      obtain ⟨h0, h1, -⟩ := h
      have one : ∀ (l : List (Pop ℚ ℚ SimPart)) a b d, l.map (fun p => ((p.mass, p.charge), p.st.items.map (fun q => (q.x 0, q.u 0)))) = [((a, b), d)] →
          ∃ p, l = [p] ∧ p.mass = a ∧ p.charge = b ∧ p.st.items.map (fun q => (q.x 0, q.u 0)) = d := by
        intro l a b d h
        rcases l with _ | ⟨p, _ | ⟨p2, l⟩⟩
        · simp at h
        · simp only [List.map_cons, List.map_nil, List.cons.injEq, and_true, Prod.mk.injEq] at h
          exact ⟨p, rfl, h.1.1, h.1.2, h.2⟩
        · simp at h
      have two : ∀ (l : List SimPart) a b, l.map (fun q => (q.x 0, q.u 0)) = [a, b] → ∃ q q', l = [q, q'] ∧ (q.x 0, q.u 0) = a ∧ (q'.x 0, q'.u 0) = b := by
        intro l a b h
        rcases l with _ | ⟨p, _ | ⟨p2, _ | ⟨p3, l⟩⟩⟩
        · simp at h
        · simp at h
        · simp only [List.map_cons, List.map_nil, List.cons.injEq, and_true] at h
          exact ⟨p, p2, rfl, h⟩
        · simp at h
      obtain ⟨p, e1, e2, e3, e5⟩ := one _ _ _ _ h0
      obtain ⟨p', e1', e2', e3', e5'⟩ := one _ _ _ _ h1
      obtain ⟨q1, q2, f1, f2, f3⟩ := two _ _ _ e5
      obtain ⟨q1', q2', f1', f2', f3'⟩ := two _ _ _ e5'
      have e4 : p.name = "e" := by
        rw [e1] at hn
        simpa using hn
      simp only [Prod.mk.injEq] at f2 f3 f2' f3'
      refine ⟨i0, i1, i2, rfl, ?_, ?_⟩
      · unfold LineCalm
        rw [e1, e1']
        refine .cons ⟨by rw [e4]; exact hm, ?_⟩ .nil
        rw [f1, f1']
        refine .cons (fun _ => ?_) (.cons (fun _ => ?_) .nil)
        · rw [f2.1, f2'.1, f2'.2]
          exact ⟨by decide +kernel, by decide +kernel, fun _ => by decide +kernel⟩
        · rw [f3.1, f3'.1, f3'.2]
          exact ⟨by decide +kernel, by decide +kernel, fun _ => by decide +kernel⟩
      · rw [e1]
        intro p2 hp2
        rw [List.mem_singleton.1 hp2, e2, e3]
        norm_num
    · simp at h

end Demo

end Dt
