import Mathlib.Analysis.SpecialFunctions.Trigonometric.Basic
import Verif.Spec.UserLists
import Verif.Props.Sources
import Verif.Props.Simulation
/-!
# C126: the sample lists of particles
-/
namespace Dt
open Spec Sources UserLists

variable {K γ φ δ : Type}

section
variable [Field K]

theorem record_of_length {dim : Nat} {t : Tup K} {r : Rec K} (h : record dim t = .ok r) : t.length = 3 * dim + 5 := by
  unfold record at h
  split at h
  · rename_i w f c i n hd
    have := congrArg List.length hd
    simp only [List.length_drop, List.length_cons, List.length_nil] at this
    omega
  · cases h

theorem record_short {dim : Nat} {t : Tup K} (h : t.length ≠ 3 * dim + 5) : record dim t = .error .value := by
  unfold record
  split
  · rename_i w f c i n hd
    have := congrArg List.length hd
    simp only [List.length_drop, List.length_cons, List.length_nil] at this
    omega
  · rfl

theorem records_all {dim : Nat} {ts : List (Tup K)} {rs : List (Rec K)} (h : ts.mapM (record dim) = .ok rs) :
    List.Forall₂ (fun t r => record dim t = .ok r) ts rs := by
  induction ts generalizing rs with
  | nil => cases h; exact .nil
  | cons t ts ih =>
    rw [List.mapM_cons] at h
    cases e : record dim t with
    | error _ => rw [e] at h; cases h
    | ok r =>
      rw [e] at h
      cases e' : ts.mapM (record dim) with
      | error _ => rw [e'] at h; cases h
      | ok rs' => rw [e'] at h; cases h; exact .cons e (ih e')

/-- Creation from tuples that are records is creation from the list of these records. -/
theorem tups_list (env : Env K γ φ δ) (dim : Nat) {ts : List (Tup K)} {rs : List (Rec K)} (h : ts.mapM (record dim) = .ok rs)
    (ns : List Nat) (hn : ∀ i ∈ ns, i < ts.length) (st : St K γ δ) :
    ns.foldlM (tupOne env dim ts) st = ns.foldlM (listOne env rs) st := by
  have hf := records_all h
  induction ns generalizing st with
  | nil => rfl
  | cons i ns ih =>
    rw [List.foldlM_cons, List.foldlM_cons]
    have hi := hn i (by simp)
    have hi' : i < rs.length := hf.length_eq ▸ hi
    have hr : record dim ts[i] = .ok rs[i] := (List.forall₂_iff_get.1 hf).2 i hi hi'
    have : tupOne env dim ts st i = listOne env rs st i := by
      unfold tupOne
      have e1 : pyGet ts (i : Int) = .ok ts[i] := by
        unfold pyGet; rw [if_pos (by omega)]; simp [orIndexErr, hi]
      have e2 : pyGet rs (i : Int) = .ok rs[i] := by
        unfold pyGet; rw [if_pos (by omega)]; simp [orIndexErr, hi']
      have e3 : pyGet [rs[i]] ((0 : Nat) : Int) = .ok rs[i] := by
        unfold pyGet; simp [orIndexErr]
      rw [e1]
      show (record dim ts[i] >>= fun r => listOne env [r] st 0) = _
      rw [hr]
      show listOne env [rs[i]] st 0 = _
      unfold listOne
      rw [e2, e3]
    rw [this]
    congr 1
    funext st'
    exact ih (fun j hj => hn j (by simp [hj])) st'

/-- **C126 (creation).** A sample function that lists `rs` makes the particle object add exactly the
particles `rs`, as a list of records would (C39). -/
theorem C126_created (env : Env K γ φ δ) {dim : Nat} {l : Lister K} {st : St K γ δ} {rs : List (Rec K)} {c' : Nat}
    (h : ListsFrom dim l st.ctr rs c') :
    createFromTups env dim l st = createFromList env (some (fun _ => (rs.length, rs, c'))) st := by
  obtain ⟨ts, h1, h2⟩ := h
  have hl : ts.length = rs.length := (records_all h2).length_eq
  unfold createFromTups createFromList
  rw [h1]
  show (List.range rs.length).foldlM (tupOne env dim ts) _ = _
  rw [tups_list env dim h2 _ (fun i hi => by rw [hl]; exact List.mem_range.1 hi)]

/-- A function whose tuples do not have `3 dim + 5` entries adds nothing: ValueError at the first one. -/
theorem C126_wrong_length (env : Env K γ φ δ) {dim : Nat} {l : Lister K} {st : St K γ δ} {n c' : Nat} {t : Tup K} {ts : List (Tup K)}
    (h : l "listed" st.ctr = .ok (n + 1, t :: ts, c')) (hl : t.length ≠ 3 * dim + 5) :
    createFromTups env dim l st = .error .value := by
  unfold createFromTups
  rw [h]
  show (List.range (n + 1)).foldlM (tupOne env dim (t :: ts)) _ = _
  rw [List.range_succ_eq_map, List.foldlM_cons]
  have : ∀ st' : St K γ δ, tupOne env dim (t :: ts) st' 0 = .error .value := by
    intro st'
    unfold tupOne
    have e1 : pyGet (t :: ts) ((0 : Nat) : Int) = .ok t := by unfold pyGet; simp [orIndexErr]
    rw [e1]
    show (record dim t >>= fun r => listOne env [r] st' 0) = _
    rw [record_short hl]
    rfl
  rw [this]
  rfl

end

section
variable [Field K] [LinearOrder K] [IsStrictOrderedRing K]

/-- The record of a tuple. -/
def recOf (x u : List K) (w : K) (f uid : Int) : Rec K := ⟨x, x, u, w, (wrap32 f).toNat, -1, wrap32 uid, 0⟩

omit [LinearOrder K] [IsStrictOrderedRing K] in
theorem record_tup {dim : Nat} {x u : List K} (hx : x.length = dim) (hu : u.length = dim) (w : K) (f uid : Int) :
    record dim (tup x u w f uid) = .ok (recOf x u w f uid) := by
  have e1 : (tup x u w f uid).drop (3 * dim) = [.real w, .int f, .int noCell, .int uid, .int 0] := by
    unfold tup
    rw [List.drop_append_of_le_length (by simp; omega), List.drop_eq_nil_of_le (by simp; omega)]
    rfl
  have e2 : ((tup x u w f uid).take dim).map asReal = x := by
    unfold tup
    simp only [List.append_assoc]
    rw [List.take_append_of_le_length (by simp; omega), List.take_of_length_le (by simp; omega), List.map_map]
    exact List.map_id' x
  have e3 : (((tup x u w f uid).drop dim).take dim).map asReal = x := by
    unfold tup
    simp only [List.append_assoc]
    rw [List.drop_append_of_le_length (by simp; omega), List.drop_eq_nil_of_le (by simp; omega), List.nil_append,
      List.take_append_of_le_length (by simp; omega), List.take_of_length_le (by simp; omega), List.map_map]
    exact List.map_id' x
  have e4 : (((tup x u w f uid).drop (2 * dim)).take dim).map asReal = u := by
    unfold tup
    rw [List.append_assoc, List.drop_append_of_le_length (by simp; omega), List.drop_eq_nil_of_le (by simp; omega), List.nil_append,
      List.take_append_of_le_length (by simp; omega), List.take_of_length_le (by simp; omega), List.map_map]
    exact List.map_id' u
  unfold record
  rw [e1, e2, e3, e4]
  rfl

omit [IsStrictOrderedRing K] in
theorem starts_of {dim : Nat} {x u : List K} {w : K} {f uid : Int} (hx : x.length = dim) (hu : u.length = dim) (hw : 0 < w)
    (hf : (wrap32 f).toNat % 2 = 0) : Starts dim (recOf x u w f uid) :=
  ⟨hx, hu, rfl, hw, rfl, rfl, hf⟩

omit [LinearOrder K] [IsStrictOrderedRing K] in
theorem lists_two {dim : Nat} {l : Lister K} {c c' : Nat} {x u : List K} {w : K} {f uid : Int} {x' u' : List K} {w' : K}
    {f' uid' : Int} (h : l "listed" c = .ok (2, [tup x u w f uid, tup x' u' w' f' uid'], c'))
    (hx : x.length = dim) (hu : u.length = dim) (hx' : x'.length = dim) (hu' : u'.length = dim) :
    ListsFrom dim l c [recOf x u w f uid, recOf x' u' w' f' uid'] c' := by
  refine ⟨_, h, ?_⟩
  rw [List.mapM_cons, record_tup hx hu, List.mapM_cons, record_tup hx' hu']
  rfl

omit [LinearOrder K] [IsStrictOrderedRing K] in
theorem lists_one {dim : Nat} {l : Lister K} {c c' : Nat} {x u : List K} {w : K} {f uid : Int}
    (h : l "listed" c = .ok (1, [tup x u w f uid], c')) (hx : x.length = dim) (hu : u.length = dim) :
    ListsFrom dim l c [recOf x u w f uid] c' := by
  refine ⟨_, h, ?_⟩
  rw [List.mapM_cons, record_tup hx hu]
  rfl

theorem drawn_two (c : Nat) : Drawn c (c + 2) [wrap32 (c : Int), wrap32 ((c + 1 : Nat) : Int)] :=
  ⟨[c, c + 1], rfl, by simp, by simp⟩

/-- **C126 (two dimensions).** Whatever the counter is, `trajelectrons`, `test_electrons` and
`two_electrons` list two particles that can start in two dimensions, take their identities from the
counter, each once, and place them at the distances 4.75 and 1.1 in the directions given by the
cosines and sines. -/
theorem C126_two_d (cos4 sin4 cos8 sin8 : K) (c : Nat) :
    (∃ rs, ListsFrom 2 (trajElectrons cos4 sin4 cos8 sin8) c rs (c + 2) ∧ (∀ r ∈ rs, Starts 2 r) ∧
      Drawn c (c + 2) (rs.map Rec.uid) ∧ rs.map Rec.x = [[19 / 4 * cos4, 19 / 4 * sin4], [19 / 4 * cos8, 19 / 4 * sin8]]) ∧
    (∃ rs, ListsFrom 2 (testElectrons cos4 sin4) c rs (c + 2) ∧ (∀ r ∈ rs, Starts 2 r) ∧
      Drawn c (c + 2) (rs.map Rec.uid) ∧ rs.map Rec.x = [[19 / 4 * cos4, 19 / 4 * sin4], [11 / 10 * cos4, 11 / 10 * sin4]]) := by
  refine ⟨⟨_, lists_two rfl rfl rfl rfl rfl, ?_, drawn_two c, ?_⟩, ⟨_, lists_two rfl rfl rfl rfl rfl, ?_, drawn_two c, ?_⟩⟩
  · intro r hr
    simp only [List.mem_cons, List.not_mem_nil, or_false] at hr
    rcases hr with rfl | rfl
    · apply starts_of <;> first | rfl | norm_num
    · apply starts_of <;> first | rfl | norm_num
  · simp [rotated, recOf]
  · intro r hr
    simp only [List.mem_cons, List.not_mem_nil, or_false] at hr
    rcases hr with rfl | rfl
    · apply starts_of <;> first | rfl | norm_num
    · apply starts_of <;> first | rfl | norm_num
  · simp [rotated, recOf]

/-- **C126 (three dimensions).** The same for `neutral_H` and `one_electron`. -/
theorem C126_three_d (c : Nat) :
    (∃ rs : List (Rec K), ListsFrom 3 neutralH3D c rs (c + 2) ∧ (∀ r ∈ rs, Starts 3 r) ∧ Drawn c (c + 2) (rs.map Rec.uid) ∧
      rs.map Rec.x = [[19 / 2, -19 / 2, 0], [19 / 2, 19 / 2, 19 / 2]]) ∧
    (∃ rs : List (Rec K), ListsFrom 3 oneElectron c rs (c + 1) ∧ (∀ r ∈ rs, Starts 3 r) ∧ Drawn c (c + 1) (rs.map Rec.uid) ∧
      rs.map Rec.x = [[0, 1 / 100, 2 / 100]]) := by
  refine ⟨⟨_, lists_two rfl rfl rfl rfl rfl, ?_, drawn_two c, rfl⟩, ⟨_, lists_one rfl rfl rfl, ?_, ⟨[c], rfl, by simp, by simp⟩, rfl⟩⟩
  · intro r hr
    simp only [List.mem_cons, List.not_mem_nil, or_false] at hr
    rcases hr with rfl | rfl
    · apply starts_of <;> first | rfl | norm_num
    · apply starts_of <;> first | rfl | norm_num
  · intro r hr
    simp only [List.mem_cons, List.not_mem_nil, or_false] at hr
    subst hr
    apply starts_of <;> first | rfl | norm_num

omit [LinearOrder K] [IsStrictOrderedRing K] in
/-- **C126 (a run).** Any sequence of calls of sample functions that take identities from the counter, from
any counter: no identity is given twice, as long as fewer than 2^32 are given. -/
theorem C126_distinct {ls : List (Nat × Lister K)} {c c' : Nat} {rs : List (Rec K)} (h : Calls ls c rs c')
    (hd : ∀ q ∈ ls, ∀ c rs c', ListsFrom q.1 q.2 c rs c' → c ≤ c' ∧ Drawn c c' (rs.map Rec.uid))
    (hb : c' - c < 2 ^ 32) : (rs.map Rec.uid).Nodup := by
  have key : c ≤ c' ∧ Drawn c c' (rs.map Rec.uid) := by
    clear hb
    induction h with
    | nil c => exact ⟨le_refl _, ⟨[], rfl, by simp, by simp⟩⟩
    | cons h t ih =>
      obtain ⟨a, b⟩ := hd _ List.mem_cons_self _ _ _ h
      obtain ⟨a', b'⟩ := ih (fun q hq => hd q (by simp [hq]))
      rw [List.map_append]
      exact ⟨by omega, b.append b' a a'⟩
  obtain ⟨-, ns, e, hn, hr⟩ := key
  rw [e]
  refine (List.nodup_map_iff_inj_on hn).2 ?_
  intro a ha b hb' hab
  have := hr a ha
  have := hr b hb'
  unfold wrap32 at hab
  omega

omit [LinearOrder K] [IsStrictOrderedRing K] in
theorem lists_unique {dim : Nat} {l : Lister K} {c c1 c2 : Nat} {rs rs' : List (Rec K)} (h : ListsFrom dim l c rs c1)
    (h' : ListsFrom dim l c rs' c2) : rs = rs' ∧ c1 = c2 := by
  obtain ⟨ts, e, m⟩ := h
  obtain ⟨ts', e', m'⟩ := h'
  rw [e] at e'
  simp only [Except.ok.injEq, Prod.mk.injEq] at e'
  obtain ⟨-, rfl, rfl⟩ := e'
  rw [m] at m'
  cases m'
  exact ⟨rfl, rfl⟩

/-- The functions that take identities from the counter. -/
theorem C126_counting (cos4 sin4 cos8 sin8 : K) :
    ∀ q ∈ ([(2, trajElectrons cos4 sin4 cos8 sin8), (2, testElectrons cos4 sin4), (3, neutralH3D), (3, oneElectron)] :
      List (Nat × Lister K)), ∀ c rs c', ListsFrom q.1 q.2 c rs c' → c ≤ c' ∧ Drawn c c' (rs.map Rec.uid) := by
  intro q hq c rs c' h
  obtain ⟨⟨r1, a1, -, d1, -⟩, ⟨r2, a2, -, d2, -⟩⟩ := C126_two_d cos4 sin4 cos8 sin8 c
  obtain ⟨⟨r3, a3, -, d3, -⟩, ⟨r4, a4, -, d4, -⟩⟩ := C126_three_d (K := K) c
  simp only [List.mem_cons, List.not_mem_nil, or_false] at hq
  rcases hq with rfl | rfl | rfl | rfl
  · obtain ⟨rfl, rfl⟩ := lists_unique a1 h; exact ⟨by omega, d1⟩
  · obtain ⟨rfl, rfl⟩ := lists_unique a2 h; exact ⟨by omega, d2⟩
  · obtain ⟨rfl, rfl⟩ := lists_unique a3 h; exact ⟨by omega, d3⟩
  · obtain ⟨rfl, rfl⟩ := lists_unique a4 h; exact ⟨by omega, d4⟩

omit [LinearOrder K] [IsStrictOrderedRing K] in
/-- **C126 (other types).** Asked for anything but listed particles, each of the functions stops the
program. -/
theorem C126_not_listed (cos4 sin4 cos8 sin8 : K) {type : String} (h : type ≠ "listed") (c : Nat) :
    ∀ l ∈ ([neutralH1D, trajElectrons cos4 sin4 cos8 sin8, testElectrons cos4 sin4, testElectronsHHe, neutralH3D, plasmaElectrons,
      hPlus, oneElectron] : List (Lister K)), l type c = .error .exit := by
  intro l hl
  simp only [List.mem_cons, List.not_mem_nil, or_false] at hl
  rcases hl with rfl | rfl | rfl | rfl | rfl | rfl | rfl | rfl <;> exact if_pos h

omit [LinearOrder K] [IsStrictOrderedRing K] in
/-- **C126 is false for `neutral_H` of UserParticles_1D.py**: its tuples lack `crossings`, so that the
particles cannot be created, in whatever dimension. -/
theorem C126_false_short (env : Env K γ φ δ) (dim : Nat) (st : St K γ δ) :
    createFromTups env dim (neutralH1D (K := K)) st = .error .value := by
  refine C126_wrong_length env (n := 1) rfl ?_
  simp only [List.length_cons, List.length_nil]
  omega

omit [LinearOrder K] [IsStrictOrderedRing K] in
/-- **C126 is false for `testelectrons` of UserParticles_2D_H_He_e.py**: NameError. -/
theorem C126_false_name (env : Env K γ φ δ) (dim : Nat) (st : St K γ δ) :
    createFromTups env dim (testElectronsHHe (K := K)) st = .error .name := rfl

/-- **C126 is false for the identities of `plasma_electrons` and `H_plus`**: they are the same in every
call, and `plasma_electrons` use those that the counter gives first. -/
theorem C126_false_ids :
    (∀ c, ∃ rs : List (Rec K), ListsFrom 3 plasmaElectrons c rs c ∧ (∀ r ∈ rs, Starts 3 r) ∧ rs.map Rec.uid = [0, 1]) ∧
    (∀ c, ∃ rs : List (Rec K), Calls [(3, plasmaElectrons), (3, plasmaElectrons)] c rs c ∧ ¬ (rs.map Rec.uid).Nodup) ∧
    (∃ rs : List (Rec K), Calls [(3, oneElectron), (3, plasmaElectrons)] 0 rs 1 ∧ ¬ (rs.map Rec.uid).Nodup) := by
  have h1 : ∀ c, ∃ rs : List (Rec K), ListsFrom 3 plasmaElectrons c rs c ∧ (∀ r ∈ rs, Starts 3 r) ∧ rs.map Rec.uid = [0, 1] := by
    intro c
    refine ⟨_, lists_two rfl rfl rfl rfl rfl, ?_, rfl⟩
    intro r hr
    simp only [List.mem_cons, List.not_mem_nil, or_false] at hr
    rcases hr with rfl | rfl
    · apply starts_of <;> first | rfl | norm_num
    · apply starts_of <;> first | rfl | norm_num
  refine ⟨h1, fun c => ?_, ?_⟩
  · obtain ⟨rs, h, -, e⟩ := h1 c
    refine ⟨_, .cons h (.cons h (.nil c)), ?_⟩
    rw [List.append_nil, List.map_append, e]
    decide
  · obtain ⟨rs, h, -, e⟩ := h1 1
    refine ⟨_, .cons (lists_one rfl rfl rfl) (.cons h (.nil 1)), ?_⟩
    rw [List.append_nil, List.map_append, e]
    simp [recOf, wrap32]

/-- **C126 is false for `H_plus`**: the second ion is listed with the flag of deleted particles (`0b01`).  The
mover keeps this flag, so that the ion is dropped in its first step, even if it meets no boundary at all:
the number of ions falls although none leaves. -/
theorem C126_false_deleted (c : Nat) :
    (∃ r1 r2 : Rec K, ListsFrom 3 hPlus c [r1, r2] c ∧ Starts 3 r1 ∧ hasFlag r2.flags deleteFlag = true ∧ ¬ Starts 3 r2) ∧
    ∀ {g p : Nat} {τ ρ Φ : Type} {h : g ≤ p} {M : Mesh K g} {bc : String → Int → τ → BCall K g p ρ → Except Err (τ × Part K p ρ)}
      {n : Nat} {dt : K} {qom : String → K} {E : String → Φ → Part K p ρ → Option (Vec K p)} {sn : String} {f : Φ} {step : Int} {time : K}
      {st st' : τ × Vec K p} {q q' : Part K p ρ} {evs : List (Part K p ρ × K)}, q.del = true →
      moveCharged h M .charged noCallback n time dt (qom sn * dt) false (E sn f) st q = .ok (st', q', evs) →
      ∀ i o b, pyMove h M bc n dt qom E sn f step time st i o b q = .ok (st', q', false) := by
  refine ⟨⟨_, _, lists_two rfl rfl rfl rfl rfl, ?_, (by decide : hasFlag (wrap32 1).toNat deleteFlag = true), fun hs => ?_⟩, ?_⟩
  · apply starts_of <;> first | rfl | norm_num
  · exact absurd (show (wrap32 1).toNat % 2 = 0 from hs.alive) (by decide : ¬ (wrap32 1).toNat % 2 = 0)
  · intro g p τ ρ Φ h M bc n dt qom E sn f step time st st' q q' evs hq e i o b
    obtain ⟨h1, -, -, h2, -⟩ := C27_free_motion e
    unfold pyMove plainAdv
    rw [h1 (bc sn)]
    simp [bind, Except.bind, pure, Except.pure, h2, hq]

end

/-- **C126 (where the electrons of two dimensions are).** With the cosines and sines of pi/4 and pi/8 they lie
in the quarter circle between the radii 1 and 5 of the sample mesh. -/
theorem C126_in_quarter (c : Nat) (l : Lister ℝ)
    (hl : l = trajElectrons (Real.cos (Real.pi / 4)) (Real.sin (Real.pi / 4)) (Real.cos (Real.pi / 8)) (Real.sin (Real.pi / 8)) ∨
      l = testElectrons (Real.cos (Real.pi / 4)) (Real.sin (Real.pi / 4))) :
    ∃ rs, ListsFrom 2 l c rs (c + 2) ∧ ∀ r ∈ rs, ∃ x y, r.x = [x, y] ∧ 0 < x ∧ 0 < y ∧ 1 ^ 2 < x ^ 2 + y ^ 2 ∧ x ^ 2 + y ^ 2 < 5 ^ 2 := by
  have hp := Real.pi_pos
  have pos : ∀ a : ℝ, 0 < a → a < Real.pi / 2 → ∀ d : ℝ, 1 < d → d < 5 →
      0 < d * Real.cos a ∧ 0 < d * Real.sin a ∧ 1 ^ 2 < (d * Real.cos a) ^ 2 + (d * Real.sin a) ^ 2 ∧
        (d * Real.cos a) ^ 2 + (d * Real.sin a) ^ 2 < 5 ^ 2 := by
    intro a h0 h1 d hd hd5
    have e : (d * Real.cos a) ^ 2 + (d * Real.sin a) ^ 2 = d ^ 2 := by
      rw [mul_pow, mul_pow, ← mul_add, Real.cos_sq_add_sin_sq, mul_one]
    rw [e]
    exact ⟨mul_pos (by linarith) (Real.cos_pos_of_mem_Ioo ⟨by linarith, h1⟩),
      mul_pos (by linarith) (Real.sin_pos_of_pos_of_lt_pi h0 (by linarith)), by nlinarith, by nlinarith⟩
  have fin : ∀ rs : List (Rec ℝ), ∀ xs : List (List ℝ), rs.map Rec.x = xs →
      (∀ v ∈ xs, ∃ x y, v = [x, y] ∧ 0 < x ∧ 0 < y ∧ 1 ^ 2 < x ^ 2 + y ^ 2 ∧ x ^ 2 + y ^ 2 < 5 ^ 2) →
      ∀ r ∈ rs, ∃ x y, r.x = [x, y] ∧ 0 < x ∧ 0 < y ∧ 1 ^ 2 < x ^ 2 + y ^ 2 ∧ x ^ 2 + y ^ 2 < 5 ^ 2 := by
    intro rs xs e h r hr
    exact h r.x (e ▸ List.mem_map.2 ⟨r, hr, rfl⟩)
  obtain ⟨⟨r1, a1, -, -, e1⟩, ⟨r2, a2, -, -, e2⟩⟩ := C126_two_d (Real.cos (Real.pi / 4)) (Real.sin (Real.pi / 4))
    (Real.cos (Real.pi / 8)) (Real.sin (Real.pi / 8)) c
  rcases hl with rfl | rfl
  · refine ⟨r1, a1, fin r1 _ e1 ?_⟩
    intro v hv
    simp only [List.mem_cons, List.not_mem_nil, or_false] at hv
    rcases hv with rfl | rfl
    · exact ⟨_, _, rfl, pos (Real.pi / 4) (by linarith) (by linarith) (19 / 4) (by norm_num) (by norm_num)⟩
    · exact ⟨_, _, rfl, pos (Real.pi / 8) (by linarith) (by linarith) (19 / 4) (by norm_num) (by norm_num)⟩
  · refine ⟨r2, a2, fin r2 _ e2 ?_⟩
    intro v hv
    simp only [List.mem_cons, List.not_mem_nil, or_false] at hv
    rcases hv with rfl | rfl
    · exact ⟨_, _, rfl, pos (Real.pi / 4) (by linarith) (by linarith) (19 / 4) (by norm_num) (by norm_num)⟩
    · exact ⟨_, _, rfl, pos (Real.pi / 4) (by linarith) (by linarith) (11 / 10) (by norm_num) (by norm_num)⟩

/-! ### Cases -/

-- The electrons of three calls have different identities.
example : ∃ rs : List (Rec ℚ), Calls [(3, neutralH3D), (2, testElectrons (3 / 5) (4 / 5)), (3, oneElectron)] 7 rs 12 ∧
    rs.map Rec.uid = [7, 8, 9, 10, 11] ∧ (rs.map Rec.uid).Nodup := by
  have h1 : ∃ r1 r2 : Rec ℚ, ListsFrom 3 neutralH3D 7 [r1, r2] 9 ∧ r1.uid = 7 ∧ r2.uid = 8 :=
    ⟨_, _, lists_two rfl rfl rfl rfl rfl, by decide, by decide⟩
  have h2 : ∃ r1 r2 : Rec ℚ, ListsFrom 2 (testElectrons (3 / 5) (4 / 5)) 9 [r1, r2] 11 ∧ r1.uid = 9 ∧ r2.uid = 10 :=
    ⟨_, _, lists_two rfl rfl rfl rfl rfl, by decide, by decide⟩
  have h3 : ∃ r1 : Rec ℚ, ListsFrom 3 oneElectron 11 [r1] 12 ∧ r1.uid = 11 := ⟨_, lists_one rfl rfl rfl, by decide⟩
  obtain ⟨a1, a2, h1, e1, e2⟩ := h1
  obtain ⟨a3, a4, h2, e3, e4⟩ := h2
  obtain ⟨a5, h3, e5⟩ := h3
  have hc := Calls.cons h1 (.cons h2 (.cons h3 (.nil 12)))
  refine ⟨_, hc, by simp [e1, e2, e3, e4, e5], C126_distinct hc (fun q hq => C126_counting (3 / 5 : ℚ) (4 / 5) 0 0 q ?_) (by decide)⟩
  simp only [List.mem_cons, List.not_mem_nil, or_false] at hq ⊢
  tauto

-- Two particles of `neutral_H` are added to a store in three dimensions, none in two or one.
example : ((createFromTups Demo.env 3 neutralH3D (Demo.st 5)).map (fun s => (s.ctr, s.traj.map TrajSp.idx))) = .ok (7, some [0, 1]) ∧
    ((createFromTups Demo.env 2 neutralH3D (Demo.st 5)).map (fun s => s.ctr)) = .error .value := by
  decide +kernel

end Dt
