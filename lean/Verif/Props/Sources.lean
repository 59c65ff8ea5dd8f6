import Mathlib.Algebra.Field.Rat
import Mathlib.Algebra.CharZero.Defs
import Mathlib.Tactic.NormNum
import Mathlib.Data.List.Nodup
import Verif.Lemmas.SourcesMore

set_option linter.unusedSectionVars false

/-!
# Properties of particle creation (C36-C39, C61, C62)
-/

namespace Dt
namespace Sources
open SAP
variable {K γ φ δ : Type} [Field K]

instance : Inhabited (Rec K) := ⟨⟨[], [], [], 0, 0, 0, 0, 0⟩⟩

/-! ### A concrete particle object -/

namespace Demo

/-- Two cells of a line, `[0,1]` and `[1,2]`. -/
def cells : List (SrcCell ℚ) := [⟨7, 1, [1/2], 1/2⟩, ⟨8, 1, [3/2], 1/2⟩]
def region : Region ℚ := ⟨cells, fun p i => match p, i with
  | x :: _, 0 => decide (0 ≤ x ∧ x ≤ 1)
  | x :: _, _ => decide (1 ≤ x ∧ x ≤ 2)
  | [], _ => false⟩
/-- The generator counts; the first uniform number of a pair falls outside the cell. -/
def env : Env ℚ Nat Unit (ℚ × ℚ) :=
  { pDim := 2, spherical := false, fourPi := 1
    uni := fun g => (if g % 2 = 0 then 3 else 1/2, g + 1)
    nrm := fun g => (g, g + 1)
    npoints := 3, junk := (0, 0)
    fields := fun _ => .ok ()
    mkPt := fun _ time p _ => (match time with | .num t => t | _ => 0, p.x.headD 0)
    fuel := 10 }
def par : Params ℚ := ⟨"e", 6, 3, [100, 200]⟩
def st (ctr : Nat) : St ℚ Nat (ℚ × ℚ) := ⟨ctr, SAP.new 2 default, some .empty, [9, 9], 0⟩
def listed (n : Nat) (flags uid : Int) : Rec ℚ := ⟨[n, 0], [n, 0], [0, 0], 1, flags.toNat, 0, uid, 0⟩

end Demo

/-! ## C36 -/

/-- Creation calls of one run, with everything else the run does in between.  `log` collects the
identities of all particles created, over all species. -/
inductive History : World K γ δ → List Int → World K γ δ → Prop
  | nil (w : World K γ δ) : History w [] w
  /-- a source or initial distribution filling a region -/
  | maxwellian {φ : Type} {w w1 w2 : World K γ δ} {log : List Int} (h : History w log w1)
      (dec : DecidableEq K) (env : Env K γ φ δ) (step time : Arg K) (r : Region K) (par : Params K)
      (gdim : Nat) (hg : ∀ c ∈ r.cells, c.mid.length = gdim)
      (s : String) (e : w1.on s (createMaxwellian env step time r par) = .ok w2)
      {s1 s2 : SAP (Rec K)} (e1 : w1.stores.get s = .ok s1) (e2 : w2.stores.get s = .ok s2)
      (hr : Reachable s1) {xs news : List (Rec K)} (h1 : Spec.Stores s1 xs)
      (h2 : Spec.Stores s2 (xs ++ news)) : History w (log ++ news.map Rec.uid) w2
  /-- particles listed by the user, who takes their identities from the counter -/
  | listed {φ : Type} {w w1 w2 : World K γ δ} {log : List Int} (h : History w log w1)
      (env : Env K γ φ δ) (m : ListMethod K)
      (hm : ∀ c, c ≤ (m c).2.2 ∧ Drawn c (m c).2.2 (((m c).2.1.take (m c).1).map Rec.uid))
      (s : String) (e : w1.on s (createFromList env (some m)) = .ok w2)
      {s1 s2 : SAP (Rec K)} (e1 : w1.stores.get s = .ok s1) (e2 : w2.stores.get s = .ok s2)
      (hr : Reachable s1) (hgrow : Spec.CanGrow s1) {xs news : List (Rec K)}
      (h1 : Spec.Stores s1 xs) (h2 : Spec.Stores s2 (xs ++ news)) :
      History w (log ++ news.map Rec.uid) w2
  /-- anything that does not touch the counter: moving, deleting, writing, ... -/
  | other {w w1 w2 : World K γ δ} {log : List Int} (h : History w log w1) (e : w2.ctr = w1.ctr) :
      History w log w2

theorem Drawn.append {a b c : Nat} {xs ys : List Int} (h1 : Drawn a b xs) (h2 : Drawn b c ys)
    (hab : a ≤ b) (hbc : b ≤ c) : Drawn a c (xs ++ ys) := by
  obtain ⟨ns, rfl, d1, r1⟩ := h1
  obtain ⟨ms, rfl, d2, r2⟩ := h2
  refine ⟨ns ++ ms, by simp, ?_, ?_⟩
  · rw [List.nodup_append]
    refine ⟨d1, d2, ?_⟩
    intro x hx y hy hxy
    have := r1 x hx
    have := r2 y hy
    omega
  · intro n hn
    rcases List.mem_append.1 hn with h | h
    · have := r1 n h; omega
    · have := r2 n h; omega

theorem get_put {V : Type} (d : Species.Dict V) (k : String) (v : V) :
    (d.put k v).get k = .ok v := by
  simp [Species.Dict.get, Species.Dict.put]

theorem get_put_ne {V : Type} (d : Species.Dict V) {k k' : String} (h : k' ≠ k) (v : V) :
    (d.put k v).get k' = d.get k' := by
  have : (k' == k) = false := by simpa using h
  simp [Species.Dict.get, Species.Dict.put, List.lookup, this]

theorem on_ok {w w' : World K γ δ} {s : String} {f : St K γ δ → Except Err (St K γ δ)}
    (h : w.on s f = .ok w') : ∃ s1 t st, w.stores.get s = .ok s1 ∧ w.trajOf s = .ok t ∧
      f ⟨w.ctr, s1, t, w.pc, w.rng⟩ = .ok st ∧ w'.ctr = st.ctr ∧
      w'.stores = w.stores.put s st.store := by
  unfold World.on at h
  simp only [bind, Except.bind] at h
  split at h
  · cases h
  rename_i s1 h1
  split at h
  · cases h
  rename_i t h2
  split at h
  · cases h
  rename_i st h3
  simp only [pure, Except.pure, Except.ok.injEq] at h
  subst h
  exact ⟨s1, t, st, h1, h2, h3, rfl, rfl⟩

theorem stores_unique {s : SAP (Rec K)} {xs ys : List (Rec K)} (hi : s.Inv) (h : Spec.Stores s xs)
    (h' : s.contents = ys) : xs = ys := by
  rw [(stores_iff hi xs).1 h, h']

theorem drawn_range (c n : Nat) {ps : List (Rec K)} (h : ps.map Rec.uid =
    (List.range' c n).map (fun n : Nat => wrap32 (n : Int))) : Drawn c (c + n) (ps.map Rec.uid) :=
  ⟨List.range' c n, h, List.nodup_range', fun k hk => by
    rw [List.mem_range'_1] at hk; omega⟩

theorem news_eq {s1 s2 : SAP (Rec K)} (hi1 : s1.Inv) (hi2 : s2.Inv) {xs news ps : List (Rec K)}
    (h1 : Spec.Stores s1 xs) (h2 : Spec.Stores s2 (xs ++ news)) (h : s2.contents = s1.contents ++ ps) :
    news = ps := by
  have e1 := (stores_iff hi1 _).1 h1
  have e2 := (stores_iff hi2 _).1 h2
  rw [h, e1] at e2
  exact List.append_cancel_left e2

theorem history_drawn {w w' : World K γ δ} {log : List Int} (h : History w log w') :
    w.ctr ≤ w'.ctr ∧ Drawn w.ctr w'.ctr log := by
  induction h with
  | nil w => exact ⟨le_refl _, [], rfl, List.nodup_nil, by simp⟩
  | @maxwellian φ w w1 w2 log h dec env step time r par g hg s e s1 s2 e1 e2 hr xs news h1 h2 ih =>
    obtain ⟨_, t, st, a1, _, a3, a4, a5⟩ := on_ok e
    rw [e1] at a1
    cases a1
    obtain ⟨_, wm, bs, _, gr, _⟩ := createMaxwellian_ok hg hr a3
    rw [a5, get_put] at e2
    cases e2
    rw [news_eq (reachable_inv hr) (reachable_inv gr.reach) h1 h2 gr.stored]
    have hd := drawn_range _ _ gr.uids
    have hctr := gr.ctr
    simp only at hd hctr
    rw [← hctr] at hd
    rw [a4]
    have := ih.1
    exact ⟨by omega, ih.2.append hd ih.1 (by omega)⟩
  | @listed φ w w1 w2 log h env m hm s e s1 s2 e1 e2 hr hgrow xs news h1 h2 ih =>
    obtain ⟨_, t, st, a1, _, a3, a4, a5⟩ := on_ok e
    rw [e1] at a1
    cases a1
    have hsync := (canGrow_iff (reachable_inv hr)).1 hgrow
    unfold createFromList at a3
    simp only at a3
    rw [List.range_eq_range'] at a3
    have hmw := hm w1.ctr
    by_cases hn : (m w1.ctr).1 ≤ (m w1.ctr).2.1.length
    · obtain ⟨st', b0, b1, b2, b3, b4, _⟩ := listLoop_ok (env := env) (m w1.ctr).2.1 (m w1.ctr).1 0
        (by omega) (st := ⟨(m w1.ctr).2.2, s1, t, w1.pc, w1.rng⟩) hr hsync
      rw [b0] at a3
      cases a3
      rw [a5, get_put] at e2
      cases e2
      rw [List.drop_zero] at b3
      rw [news_eq (reachable_inv hr) (reachable_inv b1) h1 h2 b3, a4, b4]
      exact ⟨le_trans ih.1 hmw.1, ih.2.append hmw.2 ih.1 hmw.1⟩
    · rw [listLoop_short (env := env) (m w1.ctr).2.1 (m w1.ctr).1 0 (by omega) (by omega)
        (st := ⟨(m w1.ctr).2.2, s1, t, w1.pc, w1.rng⟩) hr hsync] at a3
      cases a3
  | other h e ih => rw [e]; exact ih

/-- **C36 (partial).** In any history of creation calls (any species, regions, parameters, random
numbers; any moving, deleting and writing in between) all particles created have distinct
identities, if the user's lists take theirs from the counter and fewer than `2^32` are drawn.
Missing: lists with identities of the user's own choice (`C36_false_listed`) and longer runs
(`C36_false_wrap`). -/
theorem C36_unique_ids_partial {w w' : World K γ δ} {log : List Int} (h : History w log w')
    (hn : w'.ctr ≤ w.ctr + 2 ^ 32) : log.Nodup := by
  obtain ⟨_, ns, rfl, hd, hr⟩ := history_drawn h
  refine List.Nodup.map_on ?_ hd
  intro a ha b hb hab
  have h1 := hr a ha
  have h2 := hr b hb
  unfold wrap32 at hab
  omega

/-- **C36 fails** for a list whose identities do not come from the counter: the user lists a
particle numbered 0, then a source numbers its first particle 0. -/
theorem C36_false_listed :
    ((createFromList Demo.env (some (fun c => (1, [Demo.listed 5 0 0], c))) (Demo.st 0)).bind
      (createMaxwellian Demo.env (.num 1) (.num 0) Demo.region { Demo.par with perCell := 1 })).map
      (fun s => ((s.store.getItem 0).map Rec.uid, (s.store.getItem 1).map Rec.uid)) =
      .ok (.ok 0, .ok 0) := by
  decide +kernel

/-- **C36 fails** in long runs: a call that creates more than `2^32` particles uses an identity
twice. -/
theorem C36_false_wrap [DecidableEq K] {env : Env K γ φ δ} {step time : Arg K} {r : Region K}
    {par : Params K} {g : Nat} (hg : ∀ c ∈ r.cells, c.mid.length = g) {st st' : St K γ δ}
    (hr : Reachable st.store) (h : createMaxwellian env step time r par st = .ok st')
    {xs news : List (Rec K)} (h1 : Spec.Stores st.store xs) (h2 : Spec.Stores st'.store (xs ++ news))
    (hn : 2 ^ 32 < news.length) : ¬ (news.map Rec.uid).Nodup := by
  obtain ⟨_, wm, bs, _, gr, _⟩ := createMaxwellian_ok hg hr h
  rw [news_eq (reachable_inv hr) (reachable_inv gr.reach) h1 h2 gr.stored] at hn ⊢
  have hu := gr.uids
  simp only at hu
  rw [hu]
  intro hd
  have := List.inj_on_of_nodup_map hd (x := st.ctr) (by rw [List.mem_range'_1]; omega)
    (y := st.ctr + 2 ^ 32) (by rw [List.mem_range'_1]; omega) (by
      unfold wrap32; push_cast; omega)
  omega

/-- Non-vacuity: two species created by a list and a source; the identities are 0, 1, 2, 3. -/
example : ((createFromList Demo.env (some (fun c => (2, [Demo.listed 5 0 c, Demo.listed 6 0 (c + 1)],
      c + 2))) (Demo.st 0)).bind
      (createMaxwellian Demo.env (.num 1) (.num 0) Demo.region { Demo.par with perCell := 1 })).map
      (fun s => (List.range 4).map (fun i => (s.store.getItem i).map Rec.uid)) =
      .ok [.ok 0, .ok 1, .ok 2, .ok 3] := by
  decide +kernel

/-! ## C37 -/

/-- **C37 (partial).** If `create_maxwellian_particles` returns, the storage of the species holds
what it held, followed by one block per cell of the region: `number_per_cell` equal particles whose
weights add up to density times cell volume (divided by 4 pi in `spherical_r`), labelled with the
cell, the first at its midpoint, the others inside the cell, coordinates beyond the mesh dimension
zero.  This for every region, density, number per cell, drift, random numbers and previous content.
Missing: the calls that raise (`C37_returns`, `C37_false_full`). -/
theorem C37_fill_partial [CharZero K] [DecidableEq K] {env : Env K γ φ δ} {step time : Arg K}
    {r : Region K} {par : Params K} {g : Nat} (hg : ∀ c ∈ r.cells, c.mid.length = g)
    {st st' : St K γ δ} (hr : Reachable st.store)
    (h : createMaxwellian env step time r par st = .ok st') {xs : List (Rec K)}
    (hx : Spec.Stores st.store xs) :
    ∃ blocks : List (List (Rec K)), Spec.Stores st'.store (xs ++ blocks.flatten) ∧
      List.Forall₂ (fun (ci : SrcCell K × Nat) ps =>
        IsFill env.nrm env.pDim r par (asked env.spherical env.fourPi par ci.1) ci.1 ci.2 ps)
        r.cells.zipIdx blocks ∧
      blocks.flatten.length = par.perCell * r.cells.length ∧ Reachable st'.store := by
  obtain ⟨hn, wm, bs, hwm, gr, hb⟩ := createMaxwellian_ok hg hr h
  have hK : (par.perCell : K) ≠ 0 := Nat.cast_ne_zero.2 hn
  have hask : ∀ c : SrcCell K, (par.perCell : K) * (c.vol * wm) =
      asked env.spherical env.fourPi par c := by
    intro c
    unfold weightMult at hwm
    rw [if_neg hn] at hwm
    simp only [Except.ok.injEq] at hwm
    subst hwm
    unfold asked
    split
    · rw [div_div, mul_comm (par.perCell : K) env.fourPi, ← div_div]
      field_simp
    · field_simp
  refine ⟨bs, ?_, ?_, ?_, gr.reach⟩
  · rw [stores_iff (reachable_inv gr.reach), gr.stored, (stores_iff (reachable_inv hr) _).1 hx]
  · exact hb.imp (fun ci ps hf => by rw [← hask]; exact hf)
  · have : ∀ (cs : List (SrcCell K × Nat)) (bs : List (List (Rec K))),
        List.Forall₂ (fun (ci : SrcCell K × Nat) ps =>
          IsFill env.nrm env.pDim r par (par.perCell * (ci.1.vol * wm)) ci.1 ci.2 ps) cs bs →
        bs.flatten.length = par.perCell * cs.length := by
      intro cs bs hh
      induction hh with
      | nil => simp
      | cons a _ ih => rw [List.flatten_cons, List.length_append, ih, a.count, List.length_cons]; ring
    rw [this _ _ hb, List.length_zipIdx]

/-- **C37 (return).** Unless `number_per_cell` is 0 (ZeroDivisionError), and given a storage that
accepts new particles, a drift of the right shape, a mesh of at most the particle dimension and
fields that can be evaluated, the call returns; the only other outcome is that the search for a
position inside a cell does not end. -/
theorem C37_returns [DecidableEq K] {env : Env K γ φ δ} {step time : Arg K} {r : Region K}
    {par : Params K} {st : St K γ δ} (hr : Reachable st.store) (hg : Spec.CanGrow st.store)
    (ht : ∀ t, st.traj = some t → TrajSp.Reach env.npoints t)
    (hd : par.drift.length = env.pDim ∨ par.drift.length = 1)
    (hm : ∀ c ∈ r.cells, c.mid.length ≤ env.pDim) (hf : ∀ p, ∃ f, env.fields p = .ok f) :
    if par.perCell = 0 then createMaxwellian env step time r par st = .error .zerodiv
    else createMaxwellian env step time r par st = .error .fuel ∨
      ∃ st', createMaxwellian env step time r par st = .ok st' := by
  split
  · rename_i h0
    unfold createMaxwellian weightMult
    rw [if_pos h0]
    rfl
  · rename_i hn
    exact createMaxwellian_progress (reachable_inv hr) ((canGrow_iff (reachable_inv hr)).1 hg)
      (fun t h => TrajSp.reach_wf (ht t h)) hn hd hm hf

/-- The search for a position ends as soon as a trial point lies inside the cell; here with at
least two trials allowed the second one does. -/
example : (createMaxwellian Demo.env (.num 1) (.num 0) Demo.region Demo.par (Demo.st 0)).map
    (fun s => (List.range 6).filterMap (fun (i : Nat) =>
      (s.store.getItem i).toOption.map (fun p => (p.x, p.weight, p.cell)))) =
    .ok [([1/2, 0], 2, 7), ([3/4, 0], 2, 7), ([3/4, 0], 2, 7), ([3/2, 0], 2, 8),
      ([7/4, 0], 2, 8), ([7/4, 0], 2, 8)] := by
  decide +kernel

/-- A storage that holds four particles in segments of two, after a loop over the first segment. -/
def Demo.stale : SAP (Rec ℚ) :=
  match (SAP.new 2 default).pushAll [Demo.listed 1 0 1, Demo.listed 2 0 2, Demo.listed 3 0 3,
    Demo.listed 4 0 4] with
  | .ok (s, _) => s.initOutLoop.1
  | .error _ => SAP.new 2 default

/-- **C37 fails** by an AssertionError when the storage is full and has been read since. -/
theorem C37_false_full : (createMaxwellian Demo.env (.num 1) (.num 0) Demo.region Demo.par
    { Demo.st 0 with store := Demo.stale }).map (fun s => s.ctr) = .error .assertion := by
  decide +kernel

/-- **C37 (other species).** A call for one species leaves the storage of the others alone. -/
theorem C37_other_species [DecidableEq K] {env : Env K γ φ δ} {args : List (Arg K)}
    {w w' : World K γ δ} (h : callMaxwellian env args w = .ok w') {par : Params K}
    (hp : args[3]? = some (.params par)) {s : String} (hs : s ≠ par.species) :
    w'.stores.get s = w.stores.get s := by
  unfold callMaxwellian at h
  split at h
  · rename_i a b c d rest
    simp only [List.getElem?_cons_succ, List.getElem?_cons_zero, Option.some.injEq] at hp
    subst hp
    split at h
    · split at h
      · obtain ⟨s1, t, st, _, _, _, _, a5⟩ := on_ok h
        rw [a5, get_put_ne _ hs]
      · cases h
    · cases h
  · cases h

/-! ## C38 -/

/-- A source that keeps a log of its calls. -/
def logged {σ : Type} (s : Source σ K) : Source (σ × List (String × Int × K)) K :=
  { name := s.name, interval := s.interval
    fire := fun count time w => (s.fire count time w.1).map (fun v => (v, w.2 ++ [(s.name, count, time)])) }

/-- A run of `n` steps: at step `count` anything (`work`), then `add_more_particles`
(the main loop of examples/sphere1D/sphere1D.py:1274-1375). -/
def runSteps {σ : Type} (work : Nat → σ → Except Err σ) (time : Nat → K) (sources : List (Source σ K))
    (n : Nat) (w : σ) : Except Err σ :=
  (List.range' 1 n).foldlM (fun w (count : Nat) => do
    let w1 ← work count w
    addMore sources count (time count) w1) w

/-- The calls a schedule asks for. -/
def scheduledCalls {σ : Type} (time : Nat → K) (sources : List (Source σ K)) (steps : List Nat) :
    List (String × Int × K) :=
  steps.flatMap (fun (count : Nat) => (sources.filter (fun s => decide (s.interval ∣ (count : Int)))).map
    (fun s => (s.name, (count : Int), time count)))

theorem map_ok' {α β : Type} (f : α → β) (v : α) :
    Except.map f (.ok v : Except Err α) = .ok (f v) := rfl

theorem addMore_logged {σ : Type} (sources : List (Source σ K)) (hz : ∀ s ∈ sources, s.interval ≠ 0)
    (count : Int) (time : K) (w : σ) (log : List (String × Int × K)) :
    addMore (sources.map logged) count time (w, log) = (addMore sources count time w).map
      (fun v => (v, log ++ (sources.filter (fun s => decide (s.interval ∣ count))).map
        (fun s => (s.name, count, time)))) := by
  unfold addMore
  induction sources generalizing w log with
  | nil => simp [pure, Except.pure, Except.map]
  | cons s ss ih =>
    have hs := hz s List.mem_cons_self
    have ih' := ih (fun s' h' => hz s' (List.mem_cons_of_mem _ h'))
    rw [List.map_cons, List.foldlM_cons, List.foldlM_cons]
    simp only [bind, Except.bind]
    by_cases hd : s.interval ∣ count
    · have h1 : sourceStep count time w s = s.fire count time w := by
        unfold sourceStep
        rw [if_neg hs, if_pos ((fmod_eq_zero _ _).2 hd)]
      have h2 : sourceStep count time (w, log) (logged s) = (s.fire count time w).map
          (fun v => (v, log ++ [(s.name, count, time)])) := by
        unfold sourceStep
        rw [if_neg (show (logged s).interval ≠ 0 from hs),
          if_pos ((fmod_eq_zero count (logged s).interval).2 hd)]
        rfl
      rw [h1, h2]
      cases s.fire count time w with
      | error e => rfl
      | ok v =>
        rw [map_ok']
        simp only
        rw [ih' v]
        simp [hd]
    · have h1 : sourceStep count time w s = .ok w := by
        unfold sourceStep
        rw [if_neg hs, if_neg (fun h => hd ((fmod_eq_zero _ _).1 h))]
      have h2 : sourceStep count time (w, log) (logged s) = .ok (w, log) := by
        unfold sourceStep
        rw [if_neg (show (logged s).interval ≠ 0 from hs),
          if_neg (fun h => hd ((fmod_eq_zero count (logged s).interval).1 h))]
      rw [h1, h2]
      simp only
      rw [ih' w]
      simp [hd]

theorem runSteps_logged {σ : Type} (work : Nat → σ → Except Err σ) (time : Nat → K)
    (sources : List (Source σ K)) (hz : ∀ s ∈ sources, s.interval ≠ 0) (steps : List Nat) (w : σ)
    (log : List (String × Int × K)) :
    steps.foldlM (fun (w : σ × List (String × Int × K)) (count : Nat) => do
      let w1 ← (work count w.1).map (fun v => (v, w.2))
      addMore (sources.map logged) count (time count) w1) (w, log) =
    (steps.foldlM (fun w (count : Nat) => do
      let w1 ← work count w
      addMore sources count (time count) w1) w).map
      (fun v => (v, log ++ scheduledCalls time sources steps)) := by
  induction steps generalizing w log with
  | nil => simp [pure, Except.pure, Except.map, scheduledCalls]
  | cons c cs ih =>
    rw [List.foldlM_cons, List.foldlM_cons]
    simp only [bind, Except.bind]
    cases hw : work c w with
    | error e => rfl
    | ok v =>
      rw [map_ok']
      simp only
      rw [addMore_logged sources hz]
      cases ha : addMore sources c (time c) v with
      | error e => rfl
      | ok v' =>
        rw [map_ok']
        simp only
        have := ih v' (log ++ (sources.filter (fun s => decide (s.interval ∣ (c : Int)))).map
          (fun s => (s.name, (c : Int), time c)))
        simp only [bind, Except.bind] at this
        rw [this]
        simp [scheduledCalls]

theorem due_length (k n : Nat) : (due k n).length = n / k := by
  unfold due
  induction n with
  | zero => simp
  | succ n ih =>
    rw [List.range'_1_concat, List.filter_append, List.length_append, ih, Nat.succ_div]
    congr 1
    rw [show (1 + n) = n + 1 by omega]
    by_cases h : k ∣ n + 1
    · have : ((k : Int) ∣ ((n + 1 : Nat) : Int)) := by exact_mod_cast h
      simp only [List.filter_cons, List.filter_nil, this, decide_true, if_true, List.length_singleton, if_pos h]
    · have : ¬ ((k : Int) ∣ ((n + 1 : Nat) : Int)) := by exact_mod_cast h
      simp only [List.filter_cons, List.filter_nil, this, decide_false, Bool.false_eq_true, if_false,
        List.length_nil, if_neg h]

/-- **C38.** Over a run of `n` steps, whatever else happens in them, the creation functions are
called exactly as the schedule asks: at every step the sources whose interval divides the step
number, once each, in the order of the dictionary, with that step and its time; logging does not
change the run.  A source of interval `k` (positive or negative, not 0) is called `n / |k|` times. -/
theorem C38_schedule {σ : Type} (work : Nat → σ → Except Err σ) (time : Nat → K)
    (sources : List (Source σ K)) (hz : ∀ s ∈ sources, s.interval ≠ 0)
    (hnames : (sources.map Source.name).Nodup) (n : Nat) (w : σ) :
    runSteps (fun c (v : σ × List (String × Int × K)) => (work c v.1).map (fun u => (u, v.2))) time
      (sources.map logged) n (w, []) =
      (runSteps work time sources n w).map (fun v => (v, scheduledCalls time sources (List.range' 1 n)))
    ∧ ∀ s ∈ sources,
      (scheduledCalls time sources (List.range' 1 n)).filter (fun c => decide (c.1 = s.name)) =
        (due s.interval n).map (fun c : Nat => (s.name, (c : Int), time c)) ∧
      (due s.interval n).length = n / s.interval.natAbs := by
  refine ⟨?_, ?_⟩
  · unfold runSteps
    rw [runSteps_logged work time sources hz]
    simp
  · intro s hs
    have h1 : ∀ (c : Nat), ((sources.filter (fun s => decide (s.interval ∣ (c : Int)))).map
        (fun s => (s.name, (c : Int), time c))).filter (fun x => decide (x.1 = s.name)) =
        if s.interval ∣ (c : Int) then [(s.name, (c : Int), time c)] else [] := by
      intro c
      clear hz
      induction sources with
      | nil => simp at hs
      | cons s' ss ih =>
        rw [List.map_cons, List.nodup_cons] at hnames
        have hnone : ∀ t ∈ ss, t.name ≠ s'.name := fun t ht hn =>
          hnames.1 (List.mem_map.2 ⟨t, ht, hn⟩)
        rcases List.mem_cons.1 hs with rfl | hs'
        · have hrest : ((ss.filter (fun s => decide (s.interval ∣ (c : Int)))).map
              (fun s => (s.name, (c : Int), time c))).filter (fun x => decide (x.1 = s.name)) = [] := by
            rw [List.filter_eq_nil_iff]
            intro x hx
            obtain ⟨t, ht, rfl⟩ := List.mem_map.1 hx
            simpa using hnone t (List.mem_filter.1 ht).1
          by_cases hd : s.interval ∣ (c : Int)
          · simp only [List.filter_cons, hd, decide_true, if_true, List.map_cons, hrest]
          · simp only [List.filter_cons, hd, decide_false, Bool.false_eq_true, if_false, hrest]
        · have hne : s'.name ≠ s.name := fun h => hnone s hs' h.symm
          rw [← ih hnames.2 hs']
          by_cases hd : s'.interval ∣ (c : Int)
          · simp only [List.filter_cons, hd, decide_true, if_true, List.map_cons, hne, decide_false,
              Bool.false_eq_true, if_false]
          · simp only [List.filter_cons, hd, decide_false, Bool.false_eq_true, if_false]
    refine ⟨?_, ?_⟩
    · unfold scheduledCalls due
      induction List.range' 1 n with
      | nil => rfl
      | cons c cs ih =>
        rw [List.flatMap_cons, List.filter_append, ih, h1]
        by_cases hd : s.interval ∣ (c : Int)
        · simp [hd]
        · simp [hd]
    · have : due s.interval n = due s.interval.natAbs n := by
        unfold due
        congr 1
        funext c
        exact decide_eq_decide.2 Int.natAbs_dvd.symm
      rw [this, due_length]

/-- **C38 (interval 0).** A source of interval 0 stops the first step with a ZeroDivisionError (if
the sources before it return). -/
theorem C38_interval_zero {σ : Type} (pre post : List (Source σ K)) (s : Source σ K)
    (hs : s.interval = 0) (count : Int) (time : K) (w w1 : σ) (h : addMore pre count time w = .ok w1) :
    addMore (pre ++ s :: post) count time w = .error .zerodiv := by
  unfold addMore at *
  rw [List.foldlM_append, h]
  simp [List.foldlM_cons, sourceStep, hs, bind, Except.bind]

/-- Non-vacuity: intervals 2 and 3 over 6 steps. -/
example : runSteps (fun _ v => .ok v) (fun c => (c : ℚ) / 10)
    ([⟨"a", 2, fun _ _ v => .ok (v + 1)⟩, ⟨"b", 3, fun _ _ v => .ok (v + 10)⟩].map logged) 6 ((0 : Nat), []) =
    .ok (23, [("a", 2, 1/5), ("b", 3, 3/10), ("a", 4, 2/5), ("a", 6, 3/5), ("b", 6, 3/5)]) := by
  decide +kernel

/-! ## C39 -/

theorem flaggedAt_spec (xs : List (Rec K)) (n : Nat) (s : SAP (Rec K))
    (h : ∀ (i : Nat) (hi : i < xs.length), s.getItem ((n + i : Nat) : Int) = .ok xs[i]) :
    List.Forall₂ (fun i p => s.getItem i = .ok p) (flaggedAt n xs)
      (xs.filter (fun x => hasFlag x.flags trajFlag)) ∧
    (flaggedAt n xs).Pairwise (· < ·) ∧ (∀ i ∈ flaggedAt n xs, (n : Int) ≤ i ∧ i < (n : Int) + xs.length) := by
  induction xs generalizing n with
  | nil => exact ⟨List.Forall₂.nil, List.Pairwise.nil, by simp [flaggedAt]⟩
  | cons x xs ih =>
    obtain ⟨a, b, c⟩ := ih (n + 1) (fun i hi => by
      have := h (i + 1) (by simpa using hi)
      rw [show n + (i + 1) = n + 1 + i by omega] at this
      simpa using this)
    have hc : ∀ i ∈ flaggedAt (n + 1) xs, (n : Int) + 1 ≤ i ∧ i < (n : Int) + 1 + xs.length := by
      intro i hi; have := c i hi; push_cast at this; exact this
    unfold flaggedAt
    cases hf : hasFlag x.flags trajFlag with
    | false =>
      simp only [Bool.false_eq_true, if_false, List.filter_cons, hf]
      refine ⟨a, b, fun i hi => ?_⟩
      have := hc i hi
      simp only [List.length_cons]; push_cast; omega
    | true =>
      simp only [if_true, List.filter_cons, hf]
      refine ⟨List.Forall₂.cons ?_ a, List.pairwise_cons.2 ⟨fun i hi => ?_, b⟩, fun i hi => ?_⟩
      · have := h 0 (by simp)
        simpa using this
      · have := hc i hi; omega
      · rcases List.mem_cons.1 hi with rfl | hi
        · simp only [List.length_cons]; push_cast; omega
        · have := hc i hi
          simp only [List.length_cons]; push_cast; omega

theorem createAll_wf {np : Nat} (junk : δ) (is : List Int) {t : TrajSp δ} (h : TrajSp.WF np t) :
    TrajSp.WF np (is.foldl (fun t i => t.create np junk i) t) ∧
      (is.foldl (fun t i => t.create np junk i) t).idx = t.idx ++ is ∧
      ∀ k, (is.foldl (fun t i => t.create np junk i) t).points k = t.points k := by
  induction is generalizing t with
  | nil => exact ⟨h, by simp, fun _ => rfl⟩
  | cons i is ih =>
    obtain ⟨a, b, c⟩ := ih (TrajSp.create_wf h junk i).1
    refine ⟨a, ?_, fun k => ?_⟩
    · rw [List.foldl_cons, b]; simp [TrajSp.create]
    · rw [List.foldl_cons, c, (TrajSp.create_wf h junk i).2]

/-- **C39 (partial).** `create_from_list` on a storage that accepts new particles: if the list is long enough,
the storage then holds what it held followed by the first `number` listed particles in order; if
there is a trajectory object, one trajectory without points is added for each of them that carries
the flag, in order, and its index is where that particle is stored; old trajectories are as before.
If the list is too short, IndexError.
Missing: a storage that has been read since it was last filled or passed (`C39_false_full`). -/
theorem C39_listed_partial {env : Env K γ φ δ} (m : ListMethod K) {st : St K γ δ} (hr : Reachable st.store)
    (hg : Spec.CanGrow st.store) {xs : List (Rec K)} (hx : Spec.Stores st.store xs)
    (ht : ∀ t, st.traj = some t → TrajSp.Reach env.npoints t) {number ctr' : Nat}
    {list : List (Rec K)} (hm : m st.ctr = (number, list, ctr')) :
    if number ≤ list.length then
      ∃ st', createFromList env (some m) st = .ok st' ∧ Reachable st'.store ∧
        Spec.CanGrow st'.store ∧ Spec.Stores st'.store (xs ++ list.take number) ∧ st'.ctr = ctr' ∧
        (st.traj = none → st'.traj = none) ∧
        ∀ t, st.traj = some t → ∃ t' is, st'.traj = some t' ∧ t'.idx = t.idx ++ is ∧
          List.Forall₂ (fun i p => st'.store.getItem i = .ok p) is
            ((list.take number).filter (fun p => hasFlag p.flags trajFlag)) ∧
          is.Pairwise (· < ·) ∧ (∀ i ∈ is, (xs.length : Int) ≤ i) ∧
          ∀ k, t'.points k = t.points k
    else createFromList env (some m) st = .error .index := by
  have hi := reachable_inv hr
  have hs := (canGrow_iff hi).1 hg
  have hxc := (stores_iff hi xs).1 hx
  have hunf : createFromList env (some m) st =
      (List.range' 0 number).foldlM (listOne env list) { st with ctr := ctr' } := by
    unfold createFromList
    simp only [hm]
    rw [List.range_eq_range']
  rw [hunf]
  split
  · rename_i hn
    obtain ⟨st', b0, b1, b2, b3, b4, _, _, b7⟩ := listLoop_ok (env := env) list number 0 (by omega)
      (st := { st with ctr := ctr' }) hr hs
    rw [List.drop_zero] at b3 b7
    simp only at b3 b4 b7
    have hst : Spec.Stores st'.store (xs ++ list.take number) := by
      rw [stores_iff (reachable_inv b1), b3, hxc]
    refine ⟨st', b0, b1, (canGrow_iff (reachable_inv b1)).2 b2, hst, b4, fun h => by rw [b7, h]; rfl,
      ?_⟩
    intro t h
    obtain ⟨w1, w2, w3⟩ := createAll_wf (np := env.npoints) env.junk
      (flaggedAt st.store.contents.length (list.take number)) (TrajSp.reach_wf (ht t h))
    obtain ⟨f1, f2, f3⟩ := flaggedAt_spec (list.take number) st.store.contents.length st'.store (by
      intro i hi'
      have := hst.2 (xs.length + i) (by simp only [List.length_append]; omega)
      rw [← hxc, this]
      congr 1
      simp)
    exact ⟨_, _, by rw [b7, h]; rfl, w2, f1, f2, fun i hi' => by
      have := f3 i hi'; rw [hxc]; exact this.1, w3⟩
  · rename_i hn
    exact listLoop_short (env := env) list number 0 (by omega) (by omega)
      (st := { st with ctr := ctr' }) hr hs

/-- Non-vacuity: three listed particles, the first and last flagged, after one stored particle. -/
example : ((createFromList Demo.env (some (fun c => (1, [Demo.listed 1 0 c], c + 1))) (Demo.st 0)).bind
    (createFromList Demo.env (some (fun c => (3, [Demo.listed 5 2 c, Demo.listed 6 0 (c + 1),
      Demo.listed 7 2 (c + 2)], c + 3))))).map
      (fun s => (s.ctr, s.traj.map TrajSp.idx)) = .ok (4, some [1, 3]) := by
  decide +kernel

/-- **C39 fails** for a storage whose segments are full and which has been read: AssertionError. -/
theorem C39_false_full : ∃ s : SAP (Rec ℚ),
    ((SAP.new 2 default).pushAll [Demo.listed 1 0 1, Demo.listed 2 0 2, Demo.listed 3 0 3,
      Demo.listed 4 0 4]).map (fun r => r.1.initOutLoop.1) = .ok s ∧
    (createFromList Demo.env (some (fun c => (1, [Demo.listed 1 0 c], c + 1)))
      { Demo.st 4 with store := s }).map (fun s => s.ctr) = .error .assertion := by
  refine ⟨_, rfl, ?_⟩
  decide +kernel

/-! ## C61 -/

/-- **C61 fails**: `initialize_particles` calls the creation function of a `function_over_region`
entry without the step number, so `create_maxwellian_particles` takes the region for the time and
the parameters for the region, and raises AttributeError: for every such entry, whatever its
parameters and region, and whatever entries come before it (if they return). -/
theorem C61_false_region [DecidableEq K] (env : Env K γ φ δ)
    (methods : String → Option (ListMethod K)) (printFlags : List String) (negE : Arg K)
    (pre post : List (InitEntry K γ δ)) (e : InitEntry K γ δ) (hk : e.kind = "function_over_region")
    (hf : e.func = callMaxwellian env) (hp : e.params.species ∈ printFlags) (w w1 : World K γ δ)
    (h : initializeParticles env methods printFlags negE pre w = .ok w1) :
    initializeParticles env methods printFlags negE (pre ++ e :: post) w = .error .attribute := by
  unfold initializeParticles at *
  rw [List.foldlM_append, h]
  simp [List.foldlM_cons, initEntry, hp, hk, hf, callMaxwellian, bind, Except.bind]

/-- Non-vacuity: a listed entry followed by a region entry; the first alone returns. -/
def Demo.world : World ℚ Nat (ℚ × ℚ) :=
  ⟨0, [("e", SAP.new 2 default)], some [("e", .empty)], [0, 0], 0⟩
def Demo.entry (kind : String) : InitEntry ℚ Nat (ℚ × ℚ) :=
  ⟨kind, Demo.par, callMaxwellian Demo.env, Demo.region⟩
def Demo.methods : String → Option (ListMethod ℚ) := fun _ =>
  some (fun c => (2, [Demo.listed 5 2 c, Demo.listed 6 0 (c + 1)], c + 2))

example : ((initializeParticles Demo.env Demo.methods ["e"] .none [Demo.entry "listed"] Demo.world).map
    World.ctr,
  (initializeParticles Demo.env Demo.methods ["e"] .none
    [Demo.entry "listed", Demo.entry "function_over_region"] Demo.world).map World.ctr) =
  (.ok 2, .error .attribute) := by
  decide +kernel

/-- The same function called with the step number, as `add_more_particles` does, reaches the
region. -/
theorem C61_source_call [DecidableEq K] (env : Env K γ φ δ) (name : String) (k : Int) (r : Region K)
    (par : Params K) (negE ext : Arg K) (count : Int) (time : K) (w : World K γ δ) :
    (maxwellianSource env name k r par negE ext).fire count time w =
      w.on par.species (createMaxwellian env (.num count) (.num time) r par) := rfl

/-- **C61 (partial).** Entries of type `listed`: the particles of the species are appended as listed
(`C39_listed_partial` says how), the storage of the other species is as before. -/
theorem C61_listed_partial {env : Env K γ φ δ} {methods : String → Option (ListMethod K)}
    {printFlags : List String} {negE : Arg K} {e : InitEntry K γ δ} (hk : e.kind = "listed")
    (hp : e.params.species ∈ printFlags) {m : ListMethod K} (hm : methods e.params.species = some m)
    {w : World K γ δ} {s : SAP (Rec K)} (hs : w.stores.get e.params.species = .ok s)
    (hr : Reachable s) (hg : Spec.CanGrow s) {xs : List (Rec K)} (hx : Spec.Stores s xs)
    {number ctr' : Nat} {list : List (Rec K)} (hl : m w.ctr = (number, list, ctr'))
    (hn : number ≤ list.length) {t : Option (TrajSp δ)} (ht : w.trajOf e.params.species = .ok t)
    (htr : ∀ t', t = some t' → TrajSp.Reach env.npoints t') :
    ∃ w' s', initializeParticles env methods printFlags negE [e] w = .ok w' ∧
      w'.stores.get e.params.species = .ok s' ∧ Spec.Stores s' (xs ++ list.take number) ∧
      w'.ctr = ctr' ∧ ∀ sp, sp ≠ e.params.species → w'.stores.get sp = w.stores.get sp := by
  have h := C39_listed_partial (env := env) m (st := ⟨w.ctr, s, t, w.pc, w.rng⟩) hr hg hx htr hl
  rw [if_pos hn] at h
  obtain ⟨st', e1, _, _, h4, h5, _⟩ := h
  refine ⟨{ ctr := st'.ctr
            stores := w.stores.put e.params.species st'.store
            trajs := match w.trajs, st'.traj with
              | some d, some t' => some (d.put e.params.species t')
              | _, _ => w.trajs
            pc := st'.pc
            rng := st'.rng }, st'.store, ?_, get_put _ _ _, h4, h5, fun sp hsp => get_put_ne _ hsp _⟩
  unfold initializeParticles
  simp only [List.foldlM_cons, List.foldlM_nil, initEntry, hp, if_true, hk, hm, World.on, hs, ht, e1,
    bind, Except.bind, pure, Except.pure]
  rfl

/-- **C61 (unknown type).** An entry of another type raises NameError (the message refers to an
undefined name), not the RuntimeError intended. -/
theorem C61_unknown_kind (env : Env K γ φ δ) (methods : String → Option (ListMethod K))
    (printFlags : List String) (negE : Arg K) (e : InitEntry K γ δ) (h1 : e.kind ≠ "listed")
    (h2 : e.kind ≠ "function_over_region") (hp : e.params.species ∈ printFlags) (w : World K γ δ) :
    initializeParticles env methods printFlags negE [e] w = .error .name := by
  unfold initializeParticles
  simp [List.foldlM_cons, initEntry, hp, h1, h2, bind, Except.bind]

/-! ## C62 -/

/-- **C62 (partial).** Of the particles made by `create_maxwellian_particles` only the one numbered
500 gets a trajectory.  If it is made in this call, by a storage that accepts new particles, one
trajectory is added; its index is where that particle is stored, its only point is built from that
particle's own record and the fields at it, with the step and time of the call; the other
trajectories are as before.  If it is not made in this call nothing changes.
Missing: a storage that has been read since it was last filled or passed
(`C62_false_after_read`). -/
theorem C62_first_point_partial [DecidableEq K] {env : Env K γ φ δ} {step time : Arg K}
    {r : Region K} {par : Params K} {st st' : St K γ δ} (hr : Reachable st.store)
    (hg : Spec.CanGrow st.store) {xs : List (Rec K)} (hx : Spec.Stores st.store xs)
    (h : createMaxwellian env step time r par st = .ok st') :
    (500 < st.ctr ∨ st'.ctr ≤ 500 → st'.traj = st.traj) ∧
    (st.ctr ≤ 500 → 500 < st'.ctr → 0 < env.npoints → ∀ t, st.traj = some t →
      TrajSp.Reach env.npoints t → (∀ i ∈ t.idx, i < (xs.length : Int)) →
      ∃ (i : Nat) (p : Rec K) (f : φ) (t' : TrajSp δ), st'.traj = some t' ∧
        st'.store.getItem i = .ok p ∧ xs.length ≤ i ∧ env.fields p = .ok f ∧
        t'.idx = t.idx ++ [(i : Int)] ∧
        t'.points t.idx.length = [env.mkPt step time p f] ∧
        ∀ k < t.idx.length, t'.points k = t.points k) := by
  have hi := reachable_inv hr
  obtain ⟨⟨hinv, _⟩, ps, ch⟩ := createMaxwellian_chain hi ((canGrow_iff hi).1 hg) h
  obtain ⟨c1, c2, c3, c4⟩ := chain_traj ch
  refine ⟨c3, ?_⟩
  intro h1 h2 hnp t ht htr hold
  obtain ⟨p, f, t', d1, d2, d3, d4⟩ := c4 h1 h2 t ht
  simp only at d1 d3 c1
  have hxc := (stores_iff hi xs).1 hx
  have hw := TrajSp.create_wf (TrajSp.reach_wf htr) env.junk
    ((st.store.contents.length + (500 - st.ctr) : Nat) : Int)
  have hidx : TrajSp.indexOf (t.create env.npoints env.junk
      ((st.store.contents.length + (500 - st.ctr) : Nat) : Int)).idx
      ((st.store.contents.length + (500 - st.ctr) : Nat) : Int) = .ok t.idx.length := by
    obtain ⟨j, hj⟩ := TrajSp.indexOf_mem (xs := (t.create env.npoints env.junk
      ((st.store.contents.length + (500 - st.ctr) : Nat) : Int)).idx)
      (v := ((st.store.contents.length + (500 - st.ctr) : Nat) : Int)) (by simp [TrajSp.create])
    obtain ⟨k1, k2, k3⟩ := TrajSp.indexOf_ok hj
    rw [hj]
    congr 1
    simp only [TrajSp.create, List.length_append, List.length_singleton] at k2
    by_contra hne
    have hlt : j < t.idx.length := by omega
    have hmem : ((st.store.contents.length + (500 - st.ctr) : Nat) : Int) ∈ t.idx := by
      simp only [TrajSp.create] at k1
      rw [List.getElem?_append_left hlt, List.getElem?_eq_getElem hlt, Option.some.injEq] at k1
      rw [← k1]
      exact List.getElem_mem hlt
    have := hold _ hmem
    rw [hxc] at this
    push_cast at this
    omega
  obtain ⟨t2, e2, w2, i2, p2⟩ := TrajSp.recordDatum_ok hw.1 hidx (env.mkPt step time p f)
  rw [d3] at e2
  cases e2
  refine ⟨st.store.contents.length + (500 - st.ctr), p, f, t', d4, ?_, by rw [hxc]; omega, d2, ?_, ?_, ?_⟩
  · have hi' := hinv
    have hlt : 500 - st.ctr < ps.length := by
      by_contra hge
      rw [List.getElem?_eq_none (by omega)] at d1
      cases d1
    rw [getItem_ok hi' (by rw [c1, List.length_append]; omega)]
    congr 1
    rw [List.getElem?_eq_getElem hlt, Option.some.injEq] at d1
    simp only [c1]
    rw [List.getElem_append_right (by omega)]
    simp [d1]
  · rw [i2]; rfl
  · rw [p2, if_pos rfl, hw.2]
    have h0 : t.points t.idx.length = [] := by
      unfold TrajSp.points
      rw [List.getElem?_eq_none (by rw [(TrajSp.reach_wf htr).data])]
    rw [h0]
    simp [TrajSp.addPt, hnp]
  · intro k hk
    rw [p2, if_neg (by omega), hw.2]

/-- Non-vacuity: the particle numbered 500 is the third one made here. -/
example : (createMaxwellian Demo.env (.num 1) (.num 77) Demo.region Demo.par (Demo.st 498)).map
    (fun s => s.traj.map (fun t => (t.idx, t.points 0))) = .ok (some ([2], [(77, 3/4)])) := by
  decide +kernel

/-- **C62 fails** after a loop over the particles: the storage holds three particles in segments of
two; a read loop leaves the cursor on the first segment; the new particle numbered 500 is at 1/2,
but the point recorded has the coordinate 2 of another particle. -/
theorem C62_false_after_read : ∃ s : SAP (Rec ℚ),
    ((SAP.new 2 default).pushAll [Demo.listed 1 0 1, Demo.listed 2 0 2, Demo.listed 3 0 3]).map
      (fun r => r.1.initOutLoop.1) = .ok s ∧
    (createMaxwellian Demo.env (.num 1) (.num 77) ⟨[⟨7, 1, [1/2], 1/2⟩], Demo.region.inCell⟩
      { Demo.par with perCell := 1 } { Demo.st 500 with store := s }).map
      (fun s => (s.traj.map (fun t => (t.idx, t.points 0)), (s.store.getItem 3).map Rec.x)) =
      .ok (some ([3], [(77, 2)]), .ok [1/2, 0]) := by
  refine ⟨_, rfl, ?_⟩
  decide +kernel

end Sources
end Dt
