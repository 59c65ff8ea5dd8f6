import Verif.Props.Leapfrog
import Verif.Spec.Tally
import Verif.Lemmas.Tally

/-!
# What callbacks count (C77)
-/

set_option linter.unusedSectionVars false

namespace Dt
open TimeLoop
open Spec (LState Stores Pop Ideal Fault lastOf)
variable {K V : Type} [Field K] [LinearOrder K] [IsStrictOrderedRing K] {g p : Nat} {τ ρ φ : Type}

/-- C77 (one particle).  A callback that counts deletions has counted the particle exactly if it comes
out of its step marked for deletion. -/
theorem C77_particle {h : g ≤ p} {M : Mesh K g} {v : Variant} {cnt : String → τ → Nat} {sn : String}
    {bc : Int → τ → BCall K g p ρ → Except Err (τ × Part K p ρ)} (hb : Counts M cnt sn bc) {n : Nat}
    {time dt qmdt : K} {accel : Bool} {E : Part K p ρ → Option (Vec K p)} {st st' : τ × Vec K p}
    {q q' : Part K p ρ} {evs : List (Part K p ρ × K)} (hq : q.del = false)
    (e : moveCharged h M v bc n time dt qmdt accel E st q = .ok (st', q', evs)) :
    cnt sn st'.1 = cnt sn st.1 + (if q'.del then 1 else 0) ∧ ∀ s ≠ sn, cnt s st'.1 = cnt s st.1 := by
  unfold moveCharged at e
  dsimp only at e
  generalize hs0 : startTrk time dt st.1 st.2
    (if accel = true then accelerate qmdt (E q) q else moveBy dt (accelerate qmdt (E q) q)) = s0 at e
  cases ht : track h M v bc n s0 with
  | error e' => rw [ht] at e; cases e
  | ok s =>
    rw [ht] at e
    simp only [bind, Except.bind, pure, Except.pure, Except.ok.injEq, Prod.mk.injEq] at e
    obtain ⟨rfl, rfl, -⟩ := e
    have hdel : s0.part.del = false := by
      rw [← hs0]
      simp only [startTrk]
      have : (accelerate qmdt (E q) q).del = false := by unfold accelerate; cases E q <;> exact hq
      split
      · exact this
      · exact this
    have hst : s0.st = st.1 := by rw [← hs0]; rfl
    have key : ∀ (left : Nat) (s s' : Trk K p τ ρ), s.part.del = false → track h M v bc left s = .ok s' →
        cnt sn s'.st = cnt sn s.st + (if s'.part.del then 1 else 0) ∧ ∀ x ≠ sn, cnt x s'.st = cnt x s.st := by
      have step : ∀ (s s1 : Trk K p τ ρ) brk, s.part.del = false → Crossed h M v bc s s1 brk →
          s1.part.del = brk ∧ cnt sn s1.st = cnt sn s.st + (if s1.part.del then 1 else 0) ∧
          ∀ x ≠ sn, cnt x s1.st = cnt x s.st := by
        intro s s1 brk hd hc
        obtain ⟨cFacet, mFacet, new, f, nn, c, st1, q, q1, evs, ef, hne, hcell, hm, -, hnew, hqq, hev, hst1,
          -, -, -, -, -, -, hres⟩ := hc.ex
        have hqd : q.del = false := by rw [hqq]; exact hd
        have hcount : cnt sn st1 = cnt sn s.st + (if q1.del then 1 else 0) ∧
            (∀ x ≠ sn, cnt x st1 = cnt x s.st) ∧ (new ≠ -1 → q1.del = false) := by
          split at hev
          · obtain ⟨e1, e2, -⟩ := hev
            rw [e1, e2, hqd]
            simp
          · refine ⟨hb.one _ ⟨q, mFacet, f, _, _⟩ _ _ hev.1 hqd,
              fun x hx => hb.others _ ⟨q, mFacet, f, _, _⟩ _ _ _ hev.1 hx, fun hend => ?_⟩
            obtain ⟨k, hk⟩ : ∃ k : Nat, cFacet = k := by
              rcases findFacet_index ef with hr | hr
              · exact absurd hr hne
              · exact ⟨cFacet.toNat, by omega⟩
            subst hk
            rw [hb.interior _ ⟨q, mFacet, f, _, _⟩ _ _ hev.1
              ⟨s.cell, c, k, new, hcell, pyGet_some hm, pyGet_some hnew, hend⟩]
            exact hqd
        obtain ⟨h1, h2, h3⟩ := hcount
        rw [hst1]
        split at hres
        · obtain ⟨-, hbrk, hp⟩ := hres
          have hd1 : s1.part.del = q1.del := by rw [hp]; split <;> rfl
          rw [hd1]
          exact ⟨hbrk.symm, h1, h2⟩
        · rename_i hend
          obtain ⟨-, hbrk, hp⟩ := hres
          have hd1 : s1.part.del = q1.del := by rw [hp]
          rw [hd1]
          exact ⟨by rw [hbrk, h3 hend], h1, h2⟩
      intro left
      induction left with
      | zero =>
        intro s s' hd e
        unfold track at e
        cases hi : M.isInside (proj h s.part.x) s.cell with
        | error e' => rw [hi] at e; cases e
        | ok b =>
          rw [hi] at e
          cases b with
          | true =>
            simp only [bind, Except.bind, if_true, Except.ok.injEq] at e
            subst e
            simp [hd]
          | false => simp [bind, Except.bind] at e
      | succ left ih =>
        intro s s' hd e
        unfold track at e
        cases hi : M.isInside (proj h s.part.x) s.cell with
        | error e' => rw [hi] at e; cases e
        | ok b =>
          rw [hi] at e
          cases b with
          | true =>
            simp only [bind, Except.bind, if_true, Except.ok.injEq] at e
            subst e
            simp [hd]
          | false =>
            simp only [bind, Except.bind, Bool.false_eq_true, if_false] at e
            cases hc : crossOnce h M v bc s with
            | error e' => rw [hc] at e; cases e
            | ok r =>
              obtain ⟨s1, brk⟩ := r
              obtain ⟨h1, h2, h3⟩ := step s s1 brk hd (crossOnce_ok hc)
              rw [hc] at e
              simp only at e
              cases brk with
              | true =>
                simp only [if_true, Except.ok.injEq] at e
                subst e
                exact ⟨h2, h3⟩
              | false =>
                simp only [Bool.false_eq_true, if_false] at e
                obtain ⟨k1, k2⟩ := ih s1 s' h1 e
                rw [h1] at h2
                refine ⟨by rw [k1, h2]; simp, fun x hx => (k2 x hx).trans (h3 x hx)⟩
    obtain ⟨k1, k2⟩ := key n s0 s hdel ht
    rw [hst] at k1 k2
    exact ⟨k1, k2⟩

/-- A pass whose mover counts the particles it drops. -/
theorem pass_count {α σ : Type} {adv : Adv σ α} {P : α → Prop} {c : σ → Nat}
    (hk : ∀ st i o b x st' y f, P x → adv st i o b x = .ok (st', y, f) →
      c st' + (if f then 1 else 0) = c st + 1)
    {xs ys : List α} (hx : ∀ x ∈ xs, P x) : ∀ {st st' : σ} {i o : Nat},
      Spec.pass adv st i o xs = .ok (st', ys) → c st' + ys.length = c st + xs.length := by
  induction xs generalizing ys with
  | nil =>
    intro st st' i o h
    simp only [Spec.pass, Except.ok.injEq, Prod.mk.injEq] at h
    rw [← h.1, ← h.2]
  | cons x xs ih =>
    intro st st' i o h
    have hx' : ∀ y ∈ xs, P y := fun y hy => hx y (by simp [hy])
    simp only [Spec.pass] at h
    split at h
    · cases h
    · rename_i s1 y he
      have h1 := hk _ _ _ _ _ _ _ _ (hx x (by simp)) he
      split at h
      · cases h
      · rename_i s2 zs hz
        cases h
        have h2 := ih hx' hz
        simp only [if_true] at h1
        simp only [List.length_cons]
        omega
    · rename_i s1 y he
      have h1 := hk _ _ _ _ _ _ _ _ (hx x (by simp)) he
      have h2 := ih hx' h
      simp only [Bool.false_eq_true, if_false] at h1
      simp only [List.length_cons]
      omega

/-- A pass whose mover leaves a part of the state alone. -/
theorem pass_side {α σ γ : Type} {adv : Adv σ α} {P : α → Prop} {c : σ → γ}
    (hk : ∀ st i o b x st' y f, P x → adv st i o b x = .ok (st', y, f) → c st' = c st)
    {xs ys : List α} (hx : ∀ x ∈ xs, P x) : ∀ {st st' : σ} {i o : Nat},
      Spec.pass adv st i o xs = .ok (st', ys) → c st' = c st := by
  induction xs generalizing ys with
  | nil =>
    intro st st' i o h
    simp only [Spec.pass, Except.ok.injEq, Prod.mk.injEq] at h
    rw [← h.1]
  | cons x xs ih =>
    intro st st' i o h
    have hx' : ∀ y ∈ xs, P y := fun y hy => hx y (by simp [hy])
    simp only [Spec.pass] at h
    split at h
    · cases h
    · rename_i s1 y he
      have h1 := hk _ _ _ _ _ _ _ _ (hx x (by simp)) he
      split at h
      · cases h
      · rename_i s2 zs hz
        cases h
        exact (ih hx' hz).trans h1
    · rename_i s1 y he
      exact (ih hx' h).trans (hk _ _ _ _ _ _ _ _ (hx x (by simp)) he)

section
variable {α σ : Type}

/-- All species are moved, each mover counting the particles it drops in the count of its species. -/
theorem moveAll_count {cnt : String → σ → Nat} {sl : Nat} {mv : String → Adv σ α} {P : α → Prop}
    (hk : ∀ sn st i o b x st' y f, P x → mv sn st i o b x = .ok (st', y, f) →
      cnt sn st' + (if f then 1 else 0) = cnt sn st + 1 ∧ ∀ s ≠ sn, cnt s st' = cnt s st)
    {ps ps' : List (Pop K V α)} (hn : (ps.map (·.name)).Nodup) (hx : AllOf P ps) {side side' : σ}
    (h : Spec.moveAll sl mv ps side = .ok (ps', side')) :
    List.Forall₂ (fun s s' => s'.name = s.name ∧
      cnt s.name side' + s'.st.items.length = cnt s.name side + s.st.items.length) ps ps' ∧
    ∀ s, s ∉ ps.map (·.name) → cnt s side' = cnt s side := by
  induction ps generalizing ps' side with
  | nil =>
    simp only [Spec.moveAll, Except.ok.injEq, Prod.mk.injEq] at h
    rw [← h.1, ← h.2]; exact ⟨.nil, fun _ _ => rfl⟩
  | cons s ps ih =>
    rw [List.map_cons, List.nodup_cons] at hn
    simp only [Spec.moveAll] at h
    split at h
    · cases h
    · rename_i p' side1 hp
      split at h
      · cases h
      · rename_i ps2 side2 hps
        cases h
        obtain ⟨i1, i2⟩ := ih hn.2 (fun s hs => hx s (by simp [hs])) hps
        have hone : p'.name = s.name ∧
            cnt s.name side1 + p'.st.items.length = cnt s.name side + s.st.items.length ∧
            ∀ x ≠ s.name, cnt x side1 = cnt x side := by
          unfold Spec.movePop at hp
          split at hp
          · cases hp
            exact ⟨rfl, rfl, fun _ _ => rfl⟩
          · split at hp
            · cases hp
            · cases hp
            · rename_i side3 y ys hpass
              cases hp
              refine ⟨rfl, ?_, fun x hxn => ?_⟩
              · exact pass_count (fun st i o b x st' y f hP e => (hk _ _ _ _ _ _ _ _ _ hP e).1)
                  (hx s (by simp)) hpass
              · exact pass_side (c := cnt x)
                  (fun st i o b z st' y f hP e => (hk _ _ _ _ _ _ _ _ _ hP e).2 x hxn)
                  (hx s (by simp)) hpass
        obtain ⟨n1, c1, o1⟩ := hone
        refine ⟨.cons ⟨n1, ?_⟩ ?_, ?_⟩
        · rw [i2 s.name hn.1]
          exact c1
        · have : ∀ {as bs : List (Pop K V α)}, (∀ a ∈ as, a.name ≠ s.name) →
              List.Forall₂ (fun a a' => a'.name = a.name ∧ cnt a.name side' + a'.st.items.length =
                cnt a.name side1 + a.st.items.length) as bs →
              List.Forall₂ (fun a a' => a'.name = a.name ∧ cnt a.name side' + a'.st.items.length =
                cnt a.name side + a.st.items.length) as bs := by
            intro as bs hne hall
            induction hall with
            | nil => exact .nil
            | cons hd _ ih2 =>
              refine .cons ⟨hd.1, ?_⟩ (ih2 (fun a ha => hne a (List.mem_cons_of_mem _ ha)))
              rw [hd.2, o1 _ (hne _ List.mem_cons_self)]
          exact this (fun a ha e => hn.1 (e ▸ List.mem_map_of_mem ha)) i1
        · intro x hxn
          rw [List.map_cons, List.mem_cons, not_or] at hxn
          rw [i2 x hxn.2, o1 x hxn.1]

theorem createAll_side {γ : Type} {c : σ → γ} {sl : Nat} {count : Int} {time : K}
    {ss : List (Src K α σ)} (hs : ∀ s ∈ ss, ∀ count time st st' xs, s.make count time st = .ok (st', xs) →
      c st' = c st) {ps ps' : List (Pop K V α)} {side side' : σ}
    (h : Spec.createAll sl count time ss ps side = .ok (ps', side')) : c side' = c side := by
  induction ss generalizing ps side with
  | nil =>
    simp only [Spec.createAll, Except.ok.injEq, Prod.mk.injEq] at h
    rw [← h.2]
  | cons s ss ih =>
    have hs' := fun a ha => hs a (List.mem_cons_of_mem s ha)
    simp only [Spec.createAll] at h
    split at h
    · cases h
    · split at h
      · split at h
        · cases h
        · rename_i side2 xs hmk
          split at h
          · cases h
          · exact (ih hs' h).trans (hs s (by simp) _ _ _ _ _ hmk)
      · exact ih hs' h

/-- The step of a simulation whose movers count. -/
theorem tally_step {cnt : String → σ → Nat} {cfg : Cfg K V α σ φ} {P : α → Prop}
    (hk : ∀ sn fl c t st i o b x st' y f, P x → cfg.move sn fl c t st i o b x = .ok (st', y, f) →
      cnt sn st' + (if f then 1 else 0) = cnt sn st + 1 ∧ ∀ s ≠ sn, cnt s st' = cnt s st)
    (hs : ∀ s ∈ cfg.sources, ∀ count time st st' xs, s.make count time st = .ok (st', xs) →
      ∀ n, cnt n st' = cnt n st) {sl D : Nat} {onMesh : α → Bool} {i j : Ideal K V α σ}
    (hn : (i.pops.map (·.name)).Nodup) (hp : AllOf P i.pops) (e : i.step cfg sl D onMesh = .ok j) :
    List.Forall₂ (fun s s' => s'.name = s.name ∧ cnt s.name j.side + s'.st.items.length =
      cnt s.name i.side + s.st.items.length + (i.made cfg sl s.name).length) i.pops j.pops := by
  simp only [Ideal.step] at e
  unfold Ideal.made
  split at e
  · cases e
  · rename_i ps side hmv
    split at e
    · cases e
    · rename_i ps2 side2 hcr
      obtain ⟨h1, -⟩ := moveAll_count (cnt := cnt)
        (fun sn => hk sn (cfg.fieldOf i.phi) (i.count + 1) (i.time + cfg.dt)) hn hp hmv
      have h2 := createAll_at (by rw [forall₂_names h1 (fun _ _ k => k.1)]; exact hn) hcr
      have h3 : ∀ n, cnt n side2 = cnt n side := fun n =>
        createAll_side (c := cnt n) (fun s hs' c t a b xs e => hs s hs' c t a b xs e n) hcr
      unfold Spec.settle at e
      split at e
      · cases e
        rw [List.forall₂_map_right_iff]
        refine forall₂_trans' ?_ h1 h2
        rintro a b c ⟨n1, k1⟩ ⟨n2, -, -, -, e2⟩
        refine ⟨n2.trans n1, ?_⟩
        simp only [Spec.looked, h3, e2, List.length_append, n1]
        omega
      · cases e

theorem tally_steps {cnt : String → σ → Nat} {cfg : Cfg K V α σ φ} {P : α → Prop} {Q : Fault → Prop}
    (hk : ∀ sn fl c t st i o b x st' y f, P x → cfg.move sn fl c t st i o b x = .ok (st', y, f) →
      cnt sn st' + (if f then 1 else 0) = cnt sn st + 1 ∧ ∀ s ≠ sn, cnt s st' = cnt s st)
    (hs : ∀ s ∈ cfg.sources, ∀ count time st st' xs, s.make count time st = .ok (st', xs) →
      ∀ n, cnt n st' = cnt n st) {sl D : Nat} {onMesh : α → Bool} {names : List String}
    {moves : String → Prop} (hg : Good P Q cfg onMesh names moves) (hn : names.Nodup) (n : Nat)
    {i0 : Ideal K V α σ} {is : List (Ideal K V α σ)} (hi : Inv P names moves i0.pops)
    (h : Ideal.steps cfg sl D onMesh n i0 = .ok is) :
    List.Forall₂ (fun s s' => s'.name = s.name ∧
      cnt s.name (lastOf i0 is).side + s'.st.items.length = cnt s.name i0.side + s.st.items.length +
        ((before i0 is).flatMap (fun i => i.made cfg sl s.name)).length) i0.pops (lastOf i0 is).pops := by
  induction n generalizing i0 is with
  | zero =>
    simp only [Ideal.steps, Except.ok.injEq] at h
    subst h
    simp [lastOf, before, List.forall₂_same]
  | succ n ih =>
    simp only [Ideal.steps] at h
    split at h
    · cases h
    · rename_i i1 h1
      split at h
      · cases h
      · rename_i is1 h2
        cases h
        have s1 := tally_step hk hs (by rw [hi.names]; exact hn) hi.all h1
        have r1 := step_res hg sl D hi
        rw [h1] at r1
        have s2 := ih r1 h2
        rw [lastOf_cons]
        refine forall₂_trans' ?_ s1 s2
        rintro a b c ⟨n1, k1⟩ ⟨n2, k2⟩
        have hb : before i0 (i1 :: is1) = i0 :: before i1 is1 := by simp [before]
        refine ⟨n2.trans n1, ?_⟩
        rw [hb, List.flatMap_cons, List.length_append]
        rw [n1] at k2
        omega

end

/-- The mover of a simulation counts, per species, the particles it drops. -/
theorem pyMove_counts {h : g ≤ p} {M : Mesh K g} {cnt : String → τ → Nat}
    {bc : String → Int → τ → BCall K g p ρ → Except Err (τ × Part K p ρ)}
    (hb : ∀ sn, Counts M cnt sn (bc sn)) {maxCross : Nat} {dt : K} {qom : String → K}
    {E : String → φ → Part K p ρ → Option (Vec K p)} {sn : String} {fl : φ} {c : Int} {t : K}
    {st st' : τ × Vec K p} {i o : Int} {b : Bool} {x y : Part K p ρ} {f : Bool} (hx : Present h M x)
    (e : pyMove h M bc maxCross dt qom E sn fl c t st i o b x = .ok (st', y, f)) :
    cnt sn st'.1 + (if f then 1 else 0) = cnt sn st.1 + 1 ∧ ∀ s ≠ sn, cnt s st'.1 = cnt s st.1 := by
  unfold pyMove plainAdv at e
  cases em : moveCharged h M .charged (bc sn) maxCross t dt (qom sn * dt) false (E sn fl) st x with
  | error e' => rw [em] at e; cases e
  | ok r =>
    obtain ⟨st2, q2, evs⟩ := r
    rw [em] at e
    simp only [bind, Except.bind, pure, Except.pure, Except.ok.injEq, Prod.mk.injEq] at e
    obtain ⟨rfl, rfl, rfl⟩ := e
    obtain ⟨h1, h2⟩ := C77_particle (hb sn) hx.2 em
    refine ⟨?_, h2⟩
    rw [h1]
    cases q2.del <;> simp

/-- C77.  A whole simulation with callbacks that count the particles they delete: at the end, for each
species, the count has grown by exactly the number of particles that were given or created and are not
in the container any more. -/
theorem C77_run {h : g ≤ p} {M : Mesh K g} {cnt : String → τ → Nat}
    {bc : String → Int → τ → BCall K g p ρ → Except Err (τ × Part K p ρ)}
    (hb : ∀ sn, Counts M cnt sn (bc sn)) (hcell : ∀ sn, KeepsCell (bc sn)) {maxCross : Nat}
    {qom : String → K} {E : String → φ → Part K p ρ → Option (Vec K p)}
    {cfg : Cfg K V (Part K p ρ) (τ × Vec K p) φ}
    (hmove : cfg.move = pyMove h M bc maxCross cfg.dt qom E) (hsrc : SourcesPresent h M cfg.sources)
    (hquiet : ∀ s ∈ cfg.sources, ∀ count time st st' xs, s.make count time st = .ok (st', xs) →
      ∀ n, cnt n st'.1 = cnt n st.1)
    {onMesh : Part K p ρ → Bool} {d : Nat → Nat} {sl D C : Nat}
    (hc : GoodCfg cfg) (hm : GoodMesh cfg onMesh d D C) {z : Species.HRow K} (n : Nat)
    {init : Option (List (String × List (Part K p ρ)))} (hinit : InitPresent h M init)
    {st : State K V (Part K p ρ) (τ × Vec K p) φ} {i : Ideal K V (Part K p ρ) (τ × Vec K p)} {b : List K}
    (hf : Fresh sl D C n z st i b) (hn : (i.pops.map (·.name)).Nodup)
    (hnone : st.writer = none → cfg.partEvery = none)
    {i0 : Ideal K V (Part K p ρ) (τ × Vec K p)} {is : List (Ideal K V (Part K p ρ) (τ × Vec K p))}
    (hr : Ideal.run cfg sl D onMesh init b n i = .ok (i0, is)) :
    ∃ st', run cfg init n st = .ok st' ∧
      List.Forall₂ (fun (sp sp' : Sp K V (Part K p ρ)) => sp'.name = sp.name ∧ ∃ xs, Stores sp'.sap xs ∧
        cnt sp.name st'.side.1 + xs.length = cnt sp.name st.side.1 + (given init sp.name).length +
          ((before i0 is).flatMap (fun j => j.made cfg sl sp.name)).length) st.sps st'.sps := by
  have key1 := C68_run hc hm n init hf hnone
  rw [hr] at key1
  obtain ⟨_, st', e, ho⟩ := key1
  refine ⟨st', e, ?_⟩
  have hgood : Good (Present h M) (fun _ => True) cfg onMesh (i.pops.map (·.name)) (fun _ => True) :=
    ⟨trivial, .inr trivial,
      fun s hs => ⟨.inr trivial, .inr trivial, trivial, fun count time side =>
        ⟨fun side' xs e => hsrc s hs _ _ _ _ _ e, fun _ _ => trivial⟩⟩,
      fun sn _ _ f c t => by rw [hmove]; exact pyMove_keeps (hcell sn) (fun _ _ _ _ _ => trivial)⟩
  have h1 := run_res hgood sl D n (init := init)
    (fun gs hgs a ha => ⟨.inr trivial, hinit gs hgs a ha⟩) b (i := i)
    ⟨fun pop hp q hq => (by rw [hf.empty pop hp] at hq; cases hq), rfl, fun _ _ _ => trivial⟩
    (fun pop hp => by rw [hf.empty pop hp])
  rw [hr] at h1
  have hs : i.start cfg sl D onMesh init b = .ok i0 ∧ Ideal.steps cfg sl D onMesh n i0 = .ok is := by
    unfold Ideal.run at hr
    split at hr
    · cases hr
    · rename_i h1
      split at hr
      · cases hr
      · rename_i h2
        cases hr
        exact ⟨h1, h2⟩
  have hside : i0.side = i.side := by
    have := hs.1
    cases hini : init with
    | none =>
      rw [hini] at this
      simp only [Ideal.start, Except.ok.injEq] at this
      rw [← this]
    | some gs =>
      rw [hini] at this
      simp only [Ideal.start] at this
      split at this
      · cases this
      · unfold Spec.settle at this
        split at this
        · cases this; rfl
        · cases this
  have s1 := start_at hn hs.1
  have s2 := tally_steps (cnt := fun s (x : τ × Vec K p) => cnt s x.1)
    (fun sn fl c t st i o b x st' y f hx e => by rw [hmove] at e; exact pyMove_counts hb hx e)
    hquiet hgood hn n (h1 i0 (by simp)) hs.2
  have s3 := forall₂_trans' (T := fun s s' => s'.name = s.name ∧
    cnt s.name (lastOf i0 is).side.1 + s'.st.items.length = cnt s.name i0.side.1 + s.st.items.length +
      (given init s.name).length +
      ((before i0 is).flatMap (fun i => i.made cfg sl s.name)).length) (by
    rintro a b c ⟨n1, -, e1⟩ ⟨n2, k2⟩
    refine ⟨n2.trans n1, ?_⟩
    rw [e1, n1, List.length_append] at k2
    omega) s1 s2
  rw [hside, ← hf.side, ← ho.side] at s3
  have glue : ∀ {as : List (Sp K V (Part K p ρ))} {ps qs : List (Pop K V (Part K p ρ))}
      {bs : List (Sp K V (Part K p ρ))},
      (∀ p ∈ ps, p.st = ⟨[], false⟩) → List.Forall₂ (RelSp sl D C) as ps →
      List.Forall₂ (fun s s' => s'.name = s.name ∧
        cnt s.name st'.side.1 + s'.st.items.length = cnt s.name st.side.1 + s.st.items.length +
          (given init s.name).length +
          ((before i0 is).flatMap (fun i => i.made cfg sl s.name)).length) ps qs →
      List.Forall₂ (fun sp p => sp.name = p.name ∧ Stores sp.sap p.st.items) bs qs →
      List.Forall₂ (fun (sp sp' : Sp K V (Part K p ρ)) => sp'.name = sp.name ∧ ∃ xs, Stores sp'.sap xs ∧
        cnt sp.name st'.side.1 + xs.length = cnt sp.name st.side.1 + (given init sp.name).length +
          ((before i0 is).flatMap (fun j => j.made cfg sl sp.name)).length) as bs := by
    intro as ps qs bs hem h1
    induction h1 generalizing qs bs with
    | nil =>
      intro h2 h3
      cases h2
      cases h3
      exact .nil
    | cons hd _ ih =>
      intro h2 h3
      cases h2 with
      | cons k2 t2 =>
        cases h3 with
        | cons k3 t3 =>
          refine .cons ⟨?_, _, k3.2, ?_⟩ (ih (fun p hp => hem p (List.mem_cons_of_mem _ hp)) t2 t3)
          · rw [k3.1, k2.1, hd.name]
          · have := k2.2
            rw [hem _ List.mem_cons_self] at this
            rw [hd.name]
            simpa using this
  exact glue hf.empty hf.sps s3 ho.particles

/-! ### The hypotheses are met -/

section Demo

/-- Absorb and count, per species. -/
def tallyBC (sn : String) : Int → (String → Nat) → BCall ℚ 1 1 Nat →
    Except Err ((String → Nat) × Part ℚ 1 Nat) := fun v st b =>
  if v = 0 then .error .key
  else .ok (fun s => if s = sn then st s + 1 else st s, { b.part with del := true })

theorem demoLine_interior {F : Int} (h : demoLine.Interior F) : demoLine.marker F = 0 := by
  obtain ⟨ci, c, k, cj, hc, hf, hn, hcj⟩ := h
  obtain ⟨i, rfl, hi, rfl⟩ := lineMesh_cell hc
  simp only [demoLine, lineMesh]
  rcases k with _ | _ | k
  · simp only [lineCell, List.getElem?_cons_zero, Option.some.injEq] at hf hn
    rw [if_neg (by split at hn <;> omega), if_neg (by omega)]
  · simp only [lineCell, Nat.zero_add, List.getElem?_cons_succ, List.getElem?_cons_zero,
      Option.some.injEq] at hf hn
    rw [if_neg (by omega), if_neg (by split at hn <;> omega)]
  · simp [lineCell] at hf

theorem tallyBC_counts (sn : String) :
    Counts demoLine (fun s (st : String → Nat) => st s) sn (tallyBC sn) := by
  refine ⟨?_, ?_, ?_⟩
  · intro st call st' q' e _
    unfold tallyBC at e
    split at e
    · cases e
    · cases e; simp
  · intro st call st' q' s e hs
    unfold tallyBC at e
    split at e
    · cases e
    · cases e; simp [hs]
  · intro st call st' q' e hi
    rw [demoLine_interior hi] at e
    cases e

theorem tallyBC_keepsCell (sn : String) : KeepsCell (tallyBC sn) := by
  intro value st call st' q' e
  unfold tallyBC at e
  split at e
  · cases e
  · cases e; rfl

def tallySource : Src ℚ SimPart ((String → Nat) × Vec ℚ 1) :=
  ⟨"left", "e", 3, fun _ _ side => .ok (side, [demoPart (1 / 4) 1 0 false])⟩

/-- The simulation of `Simulation` with counting callbacks. -/
def tallyCfg : Cfg ℚ ℚ SimPart ((String → Nat) × Vec ℚ 1) (List ℚ) where
  dt := 1 / 2
  move := pyMove (le_refl 1) demoLine tallyBC 3 (1 / 2) (fun _ => -1) simField
  sources := [tallySource]
  attrs := (simCfg []).attrs
  junk := 0
  partEvery := some 2
  cellEvery := some 3
  fieldEvery := some 1
  quantities := [.count]
  vel := []
  A := (simCfg []).A
  SD := (simCfg []).SD
  SC := (simCfg []).SC
  vol := fun _ => 1
  ncell := 3
  bc := fun v => v
  solve := fun v => v.map (· / 100)
  factor := none
  fieldOf := fun v => v

def tallyState (n : Nat) : State ℚ ℚ SimPart ((String → Nat) × Vec ℚ 1) (List ℚ) where
  count := 0
  time := 0
  sps := (simState n).sps
  side := (fun _ => 0, ![0])
  field := []
  solver := (simState n).solver
  writer := (simState n).writer
  hist := (simState n).hist
  phiLog := []
  cellLog := []

def tallyIdeal : Ideal ℚ ℚ SimPart ((String → Nat) × Vec ℚ 1) :=
  ⟨0, 0, [⟨"e", -1, 1, 1, ⟨[], false⟩⟩], (fun _ => 0, ![0]), []⟩

theorem tally_good : GoodCfg tallyCfg := by
  obtain ⟨h1, h2, h3, h4, h5⟩ := sim_good []
  exact ⟨⟨h1.1, h1.2⟩, (by simp [tallyCfg, tallySource]), h3, h4, h5⟩

theorem tally_mesh : GoodMesh tallyCfg onSim (fun k => k) 4 3 := by
  obtain ⟨h1, h2, h3⟩ := sim_mesh []
  exact ⟨h1, h2, h3⟩

theorem tally_fresh (n : Nat) : Fresh 2 4 3 n ⟨0, 0, []⟩ (tallyState n) tallyIdeal [0, 0, 0, 0] := by
  obtain ⟨-, -, -, h4, h5, h6, h7, h8, h9, -, -⟩ := sim_fresh n
  exact ⟨rfl, rfl, rfl, h4, h5, h6, h7, h8, h9, rfl, rfl⟩

abbrev tallyRun (n : Nat) := Ideal.run tallyCfg 2 4 onSim (some simInit) [0, 0, 0, 0] n tallyIdeal

/-- Counts and numbers of electrons in the states of a simulation. -/
def tallyView (r : Except Fault (Ideal ℚ ℚ SimPart ((String → Nat) × Vec ℚ 1) ×
    List (Ideal ℚ ℚ SimPart ((String → Nat) × Vec ℚ 1)))) : Option (List (Nat × List Nat)) :=
  r.toOption.map (fun r => (r.1 :: r.2).map (fun i => (i.side.1 "e", i.pops.map (·.st.items.length))))

example : tallyView (tallyRun 3) = some [(0, [3]), (1, [2]), (1, [2]), (2, [2])] := by decide +kernel

-- C77 applies to this run.
example : ∃ i0 is st', tallyRun 3 = .ok (i0, is) ∧ run tallyCfg (some simInit) 3 (tallyState 3) = .ok st' ∧
    List.Forall₂ (fun (sp sp' : Sp ℚ ℚ SimPart) => sp'.name = sp.name ∧ ∃ xs, Stores sp'.sap xs ∧
      st'.side.1 sp.name + xs.length = 0 + (given (some simInit) sp.name).length +
        ((before i0 is).flatMap (fun j => j.made tallyCfg 2 sp.name)).length) (tallyState 3).sps st'.sps := by
  cases hr : tallyRun 3 with
  | error f =>
    have : (tallyView (tallyRun 3)).isSome = true := by decide +kernel
    rw [hr] at this; cases this
  | ok r =>
    obtain ⟨i0, is⟩ := r
    obtain ⟨st', e, h1⟩ := C77_run (cfg := tallyCfg) tallyBC_counts tallyBC_keepsCell rfl
      (fun s hs count time side side' xs e q hq => by
        simp only [tallyCfg, List.mem_singleton] at hs
        subst hs
        simp only [tallySource, Except.ok.injEq, Prod.mk.injEq] at e
        rw [← e.2] at hq
        simp only [List.mem_singleton] at hq
        subst hq
        exact ⟨by unfold InItsCell; decide +kernel, rfl⟩)
      (fun s hs count time side side' xs e n => by
        simp only [tallyCfg, List.mem_singleton] at hs
        subst hs
        simp only [tallySource, Except.ok.injEq, Prod.mk.injEq] at e
        rw [← e.1])
      tally_good tally_mesh 3 sim_init (tally_fresh 3) (by decide) (fun h => by cases h) hr
    exact ⟨i0, is, st', rfl, e, h1⟩

end Demo

end Dt
