import Verif.Streams
/-!
C144: the results of a population are determined by its entropy.
-/
namespace Verif.Streams

/-- The steps that draw are steps of the table that take the option `RNG` and do not refuse the options given. -/
def Declared {ι ρ : Type} (ph : Phys ι ρ) (p : Props) : Prop :=
  ∀ b, (ph.evolve b).Uses fun j => ∃ st, p.steps[j]? = some st ∧ st.draws = true ∧ st.refuses = false

/-- The tables of Moe & Di Stefano are not in use, or have not been used in this session. -/
def MoeFree {ι ρ : Type} (ph : Phys ι ρ) (useMoe : Bool) (s : Session) : Prop :=
  (useMoe = true ∧ s.moe = none) ∨ (useMoe = false ∧ ∀ i, (ph.sample i).Uses fun x => x = .option)

/-- Steps that are not loaded yet get the generator of the population, each of them that takes one. -/
theorem C144_own (p : Props) (h : p.loaded = none) (rng j : ℕ) (st : Step) (hj : p.steps[j]? = some st) (hd : st.draws = true) (hr : st.refuses = false) :
    ((((ready p rng).loaded.getD [])[j]?).join : Option ℕ) = some rng := by
  rw [ready, h, if_neg (by simp), loaded_gen p rng j st hj]
  simp [stepGen, checked, hd, hr]

theorem pure_run {ι ρ : Type} (u : Seed → ℕ → ℚ) (ph : Phys ι ρ) (useMoe : Bool) (s : Session) (p : Props) (hp : p.loaded = none) (hd : Declared ph p)
    (hm : MoeFree ph useMoe s) (e : ℕ) (os : ℕ) (is : List ℕ) :
    (evolvePop u ph useMoe (newPop s (some e) os).1 p (newPop s (some e) os).2 is).1 =
      (pureLoop (u (.given e)) ph is 0).1.map (fun x => some (x.1, some x.2)) ∧
    (evolvePop u ph useMoe (newPop s (some e) os).1 p (newPop s (some e) os).2 is).2.1.heap =
      s.heap ++ [⟨.given e, (pureLoop (u (.given e)) ph is 0).2⟩] := by
  have h := loop_single u ph useMoe ((ready p (newPop s (some e) os).2).loaded.getD []) (newPop s (some e) os).2 (.given e)
    (fun i => by
      rcases hm with ⟨hu, _⟩ | ⟨_, hs⟩
      · exact Comp.Uses.mono (fun _ _ => .inl hu) _ (Comp.Uses.all (P := fun _ => True) (fun _ => trivial) _)
      · exact Comp.Uses.mono (fun _ hx => .inr hx) _ (hs i))
    (fun b => Comp.Uses.mono (fun j hj => by
      obtain ⟨st, h1, h2, h3⟩ := hj
      exact C144_own p hp _ j st h1 h2 h3) _ (hd b))
    is (newPop s (some e) os).1 0 (by simp [newPop])
    (fun hu => by
      rcases hm with ⟨_, h⟩ | ⟨h, _⟩
      · exact .inl h
      · rw [h] at hu; exact absurd hu (by decide))
  refine ⟨h.1, h.2.trans ?_⟩
  simp [newPop]

/-- A population with steps not loaded yet: its results are those of one stream, that of its entropy, read from the beginning, whatever
happened before in the session. -/
theorem C144_reproducible {ι ρ : Type} (u : Seed → ℕ → ℚ) (ph : Phys ι ρ) (useMoe : Bool) (s : Session) (p : Props) (hp : p.loaded = none) (hd : Declared ph p)
    (hm : MoeFree ph useMoe s) (e : ℕ) (os : ℕ) (is : List ℕ) :
    (evolvePop u ph useMoe (newPop s (some e) os).1 p (newPop s (some e) os).2 is).1 =
      (pureLoop (u (.given e)) ph is 0).1.map (fun x => some (x.1, some x.2)) :=
  (pure_run u ph useMoe s p hp hd hm e os is).1

/-- Two sessions with anything done before, two tables of properties: the same entropy gives the same results. -/
theorem C144_same {ι ρ : Type} (u : Seed → ℕ → ℚ) (ph : Phys ι ρ) (useMoe : Bool) (s s' : Session) (p p' : Props) (hp : p.loaded = none) (hp' : p'.loaded = none)
    (hd : Declared ph p) (hd' : Declared ph p') (hm : MoeFree ph useMoe s) (hm' : MoeFree ph useMoe s') (e os os' : ℕ) (is : List ℕ) :
    (evolvePop u ph useMoe (newPop s (some e) os).1 p (newPop s (some e) os).2 is).1 =
      (evolvePop u ph useMoe (newPop s' (some e) os').1 p' (newPop s' (some e) os').2 is).1 := by
  rw [C144_reproducible u ph useMoe s p hp hd hm, C144_reproducible u ph useMoe s' p' hp' hd' hm']

/-- The other generators of the session are not touched. -/
theorem C144_isolated {ι ρ : Type} (u : Seed → ℕ → ℚ) (ph : Phys ι ρ) (useMoe : Bool) (s : Session) (p : Props) (hp : p.loaded = none) (hd : Declared ph p)
    (hm : MoeFree ph useMoe s) (e : ℕ) (os : ℕ) (is : List ℕ) (g : ℕ) (hg : g < s.heap.length) :
    (evolvePop u ph useMoe (newPop s (some e) os).1 p (newPop s (some e) os).2 is).2.1.heap[g]? = s.heap[g]? := by
  rw [(pure_run u ph useMoe s p hp hd hm e os is).2]
  exact List.getElem?_append_left hg

/-! A run of one binary after the other in which sampling draws one number and evolving draws `kicks` numbers from the first step. -/

/-- `n` draws from the first step. -/
def kicksOf : ℕ → Comp ℕ ℚ
  | 0 => .ret 0
  | 1 => .draw 0 fun x => .ret x
  | n + 2 => .draw 0 fun _ => kicksOf (n + 1)

def plain (kicks : ℕ) : Phys ℚ ℚ := ⟨fun _ => .draw .option fun x => .ret x, fun _ => kicksOf kicks⟩
def withMoe : Phys ℚ ℚ := ⟨fun _ => .draw .moe fun x => .ret x, fun _ => .ret 0⟩
def snStep : Step := ⟨true, false, none⟩
def fresh : Session := ⟨importTime, none⟩

theorem kicks_uses (P : ℕ → Prop) (h : P 0) : ∀ n, (kicksOf n).Uses P
  | 0 => trivial
  | 1 => ⟨h, fun _ => trivial⟩
  | n + 2 => ⟨h, fun _ => kicks_uses P h (n + 1)⟩

theorem plain_declared (k : ℕ) (opts : ℕ → Option ℕ) (l : Option (List (Option ℕ))) : Declared (plain k) ⟨[snStep], opts, l⟩ :=
  fun _ => kicks_uses _ ⟨snStep, rfl, rfl, rfl⟩ k

/-- The hypotheses of `C144_reproducible` hold for such a run in a new session. -/
example (k : ℕ) : Declared (plain k) ⟨[snStep], fun _ => none, none⟩ ∧ MoeFree (plain k) false fresh :=
  ⟨plain_declared k _ _, .inr ⟨rfl, fun _ => ⟨rfl, fun _ => trivial⟩⟩⟩

/-- Steps loaded beforehand keep the generator they were loaded with: for every name that a step draws from, the generator is the one of loading, not the
one of the population. -/
theorem C144_loaded_before (p : Props) (g rng j : ℕ) (st : Step) (hj : p.steps[j]? = some st) (hd : st.draws = true) (hr : st.refuses = false) :
    ((((ready (loadSteps p g) rng).loaded.getD [])[j]?).join : Option ℕ) = some g := by
  have h1 : ready (loadSteps p g) rng = loadSteps p g := by simp [ready, loadSteps]
  rw [h1, loaded_gen p g j st hj]
  simp [stepGen, checked, hd, hr]

/-- So with `SimulationProperties.from_ini(path, load_steps=True)` the kicks are numbers of the generator seeded by the operating system when the module was
imported: the entropy of the population does not determine the results. -/
theorem C144_import_time_violated (u : Seed → ℕ → ℚ) (e os : ℕ) (opts : ℕ → Option ℕ) :
    (evolvePop u (plain 1) false (newPop fresh (some e) os).1 (fromIniLoaded [snStep] opts) (newPop fresh (some e) os).2 [0]).1 =
      [some (u (.given e) 0, some (u (.system 0) 0))] := rfl

/-- Two populations of the same entropy that share their properties: the kick of the second one is not that of the first, it is the next number of the
first one's generator. -/
theorem C144_shared_violated (u : Seed → ℕ → ℚ) (e os os' : ℕ) (opts : ℕ → Option ℕ) :
    let a := newPop fresh (some e) os
    let r := evolvePop u (plain 1) false a.1 ⟨[snStep], opts, none⟩ a.2 [0]
    let b := newPop r.2.1 (some e) os'
    r.1 = [some (u (.given e) 0, some (u (.given e) 1))] ∧
    (evolvePop u (plain 1) false b.1 r.2.2 b.2 [0]).1 = [some (u (.given e) 0, some (u (.given e) 2))] := ⟨rfl, rfl⟩

/-- And with different entropies the kicks of the second population are those of the first one's seed. -/
theorem C144_shared_seed_violated (u : Seed → ℕ → ℚ) (e e' os os' : ℕ) (opts : ℕ → Option ℕ) :
    let a := newPop fresh (some e) os
    let r := evolvePop u (plain 1) false a.1 ⟨[snStep], opts, none⟩ a.2 [0]
    let b := newPop r.2.1 (some e') os'
    (evolvePop u (plain 1) false b.1 r.2.2 b.2 [0]).1 = [some (u (.given e') 0, some (u (.given e) 2))] := rfl

/-- The object of Moe & Di Stefano keeps the generator of the first population that sampled with it, for the rest of the session. -/
theorem C144_moe_kept (m : ℕ) (useMoe : Bool) (rng : ℕ) : moeAfter useMoe (some m) rng = some m := by
  cases useMoe <;> rfl

theorem C144_moe_loop {ι ρ : Type} (u : Seed → ℕ → ℚ) (ph : Phys ι ρ) (useMoe : Bool) (gens : List (Option ℕ)) (rng m : ℕ) :
    ∀ (is : List ℕ) (s : Session), s.moe = some m → (loop u ph useMoe gens rng is s).2.moe = some m := by
  intro is
  induction is with
  | nil => intro s h; exact h
  | cons i is ih =>
    intro s h
    simp only [loop]
    apply ih
    simp only [oneBinary, h]
    cases hr : run u (srcEnv (moeAfter useMoe (some m) rng) rng) (ph.sample i) s.heap with
    | mk o h' =>
      cases o with
      | none => exact C144_moe_kept m useMoe rng
      | some b => exact C144_moe_kept m useMoe rng

/-- The next metallicity of a run (a population with another entropy and its own, unloaded properties): its companions are drawn with the first population's
generator, so they depend on the first one's entropy and on how many binaries it had. -/
theorem C144_moe_violated (u : Seed → ℕ → ℚ) (e e' os os' : ℕ) (opts opts' : ℕ → Option ℕ) :
    let a := newPop fresh (some e) os
    let r := evolvePop u withMoe true a.1 ⟨[], opts, none⟩ a.2 [0, 1]
    let b := newPop r.2.1 (some e') os'
    (evolvePop u withMoe true b.1 ⟨[], opts', none⟩ b.2 [0]).1 = [some (u (.given e) 2, some 0)] := rfl

/-- The first binary is sampled from the beginning of the stream, whatever the physics. -/
theorem C144_first {ι ρ ρ' : Type} (v : ℕ → ℚ) (sample : ℕ → Comp Src ι) (ev : ι → Comp ℕ ρ) (ev' : ι → Comp ℕ ρ') (i : ℕ) (is is' : List ℕ) :
    ((pureLoop v ⟨sample, ev⟩ (i :: is) 0).1.map (·.1)).head? = ((pureLoop v ⟨sample, ev'⟩ (i :: is') 0).1.map (·.1)).head? := rfl

/-- If evolving draws nothing, all initial binaries are those of the sampling alone. -/
theorem C144_initial_partial {ι ρ ρ' : Type} (v : ℕ → ℚ) (sample : ℕ → Comp Src ι) (ev : ι → Comp ℕ ρ) (ev' : ι → Comp ℕ ρ')
    (h : ∀ b, (ev b).Uses fun _ => False) (h' : ∀ b, (ev' b).Uses fun _ => False) (is : List ℕ) (n : ℕ) :
    (pureLoop v ⟨sample, ev⟩ is n).1.map (·.1) = (pureLoop v ⟨sample, ev'⟩ is n).1.map (·.1) := by
  have key : ∀ {α : Type} (c : Comp ℕ α) (n : ℕ), c.Uses (fun _ => False) → (pureRun v c n).2 = n := by
    intro α c n hc
    cases c with
    | ret a => rfl
    | draw s k => exact hc.1.elim
  induction is generalizing n with
  | nil => rfl
  | cons i is ih =>
    simp only [pureLoop, List.map_cons, key _ _ (h _), key _ _ (h' _), ih]

/-- Otherwise the initial binaries depend on the physics: with the same entropy, the second binary is another one when the first one draws a kick. -/
theorem C144_initial_violated (u : Seed → ℕ → ℚ) (e os : ℕ) (opts : ℕ → Option ℕ) (k : ℕ) :
    (((evolvePop u (plain k) false (newPop fresh (some e) os).1 ⟨[snStep], opts, none⟩ (newPop fresh (some e) os).2 [0, 1]).1.map
      (Option.map (·.1))) : List (Option ℚ)) = [some (u (.given e) 0), some (u (.given e) (1 + k))] := by
  rw [C144_reproducible u (plain k) false fresh ⟨[snStep], opts, none⟩ rfl (plain_declared k _ _) (.inr ⟨rfl, fun _ => ⟨rfl, fun _ => trivial⟩⟩)]
  have : ∀ (k n : ℕ) (v : ℕ → ℚ), (pureRun v (kicksOf k) n).2 = n + k := by
    intro k
    induction k with
    | zero => intro n v; rfl
    | succ k ih =>
      intro n v
      cases k with
      | zero => rfl
      | succ k =>
        have h1 := ih (n + 1) v
        have h2 : (pureRun v (kicksOf (k + 1 + 1)) n).2 = (pureRun v (kicksOf (k + 1)) (n + 1)).2 := rfl
        rw [h2, h1]; omega
  simp [pureLoop, pureRun, plain, this]

/-- A step that takes longer than the allowed time is cut off by the clock; where it was cut decides what the later binaries are. -/
theorem C144_clock_violated (v : ℕ → ℚ) (c k : ℕ) (hc : c ≤ k) :
    (pureLoop v ⟨(plain k).sample, fun b => ((plain k).evolve b).cut 0 c⟩ [0, 1] 0).1.map (·.1) = [v 0, v (1 + c)] := by
  have : ∀ (k n c : ℕ), c ≤ k → (pureRun v ((kicksOf k).cut 0 c) n).2 = n + c := by
    intro k
    induction k with
    | zero =>
      intro n c hc
      obtain rfl : c = 0 := by omega
      rfl
    | succ k ih =>
      intro n c hc
      cases k with
      | zero =>
        have : c = 0 ∨ c = 1 := by omega
        rcases this with rfl | rfl <;> rfl
      | succ k =>
        cases c with
        | zero => rfl
        | succ c =>
          have h1 := ih (n + 1) c (by omega)
          have h2 : (pureRun v ((kicksOf (k + 1 + 1)).cut 0 (c + 1)) n).2 = (pureRun v ((kicksOf (k + 1)).cut 0 c) (n + 1)).2 := rfl
          rw [h2, h1]; omega
  simp [pureLoop, pureRun, plain, this k _ c hc]

/-- The option `RNG` that the user gives for a step is overwritten, in the user's own dictionary, by the generator of loading. -/
theorem C144_option_violated (p : Props) (rng j : ℕ) (st : Step) (hj : p.steps[j]? = some st) (hd : st.draws = true) :
    (loadSteps p rng).opts j = some rng := by
  simp [loadSteps, hj, checked, hd]

/-- For steps without that option nothing is changed. -/
theorem C144_option_kept (p : Props) (rng j : ℕ) (h : ∀ st, p.steps[j]? = some st → st.draws = false) : (loadSteps p rng).opts j = p.opts j := by
  simp only [loadSteps]
  cases hj : p.steps[j]? with
  | none => rfl
  | some st => simp [checked, h st hj]

/-- Loading again replaces the generators: by that of the last loading only. -/
theorem C144_reload (p : Props) (g rng j : ℕ) (st : Step) (hj : p.steps[j]? = some st) (hd : st.draws = true) (hr : st.refuses = false) :
    ((((loadSteps (loadSteps p g) rng).loaded.getD [])[j]?).join : Option ℕ) = some rng := by
  rw [loaded_gen (loadSteps p g) rng j st hj]
  simp [stepGen, checked, hd, hr]

/-- A step whose class refuses the options is made without them: it draws from the generator of its class, or has none and the binary fails. -/
theorem C144_refused_violated (u : Seed → ℕ → ℚ) (e os : ℕ) (opts : ℕ → Option ℕ) (own : Option ℕ) (hown : own = none ∨ own = some 2) :
    (evolvePop u (plain 1) false (newPop fresh (some e) os).1 ⟨[⟨true, true, own⟩], opts, none⟩ (newPop fresh (some e) os).2 [0]).1 =
      [some (u (.given e) 0, own.map fun _ => u (.system 2) 0)] := by
  rcases hown with rfl | rfl <;> rfl

/-- `reset_rng` starts a generator of the same seed: used without the option `RNG`, the sampling begins anew. -/
theorem C144_reset {α : Type} (u : Seed → ℕ → ℚ) (h : Heap) (own : ℕ) (x : Gen) (hx : h[own]? = some x) (c : Comp Unit α) :
    (run u (fun _ => some (usedBy (resetRng h own).2 none)) c (resetRng h own).1).1 = some (pureRun (u x.seed) c 0).1 := by
  have hr : resetRng h own = (h ++ [⟨x.seed, 0⟩], h.length) := by simp [resetRng, hx]
  rw [hr]
  have := run_single u (fun _ => some (usedBy h.length none)) h.length x.seed c (h ++ [⟨x.seed, 0⟩]) 0
    (Comp.Uses.all (fun _ => rfl) c)
    (by simp)
  rw [this]

/-- But a population passes its generator as option, and this one wins: after `reset_rng` the population goes on where it was. -/
theorem C144_reset_violated {α : Type} (u : Seed → ℕ → ℚ) (h : Heap) (own rng : ℕ) (x y : Gen) (hx : h[own]? = some x) (hy : h[rng]? = some y) (c : Comp Unit α) :
    (run u (fun _ => some (usedBy (resetRng h own).2 (some rng))) c (resetRng h own).1).1 = some (pureRun (u y.seed) c y.pos).1 := by
  have hr : resetRng h own = (h ++ [⟨x.seed, 0⟩], h.length) := by simp [resetRng, hx]
  rw [hr]
  have hl := (List.getElem?_eq_some_iff.mp hy).1
  have := run_single u (fun _ => some (usedBy h.length (some rng))) rng y.seed c (h ++ [⟨x.seed, 0⟩]) y.pos
    (Comp.Uses.all (fun _ => rfl) c)
    (by rw [List.getElem?_append_left hl, hy])
  rw [this]

/-- Evolving a population a second time goes on in its stream. -/
theorem C144_again {ι ρ : Type} (v : ℕ → ℚ) (ph : Phys ι ρ) (is is' : List ℕ) (n : ℕ) :
    pureLoop v ph (is ++ is') n =
      ((pureLoop v ph is n).1 ++ (pureLoop v ph is' (pureLoop v ph is n).2).1, (pureLoop v ph is' (pureLoop v ph is n).2).2) := by
  induction is generalizing n with
  | nil => rfl
  | cons i is ih => simp only [List.cons_append, pureLoop, ih]

/-- Asking for more binaries does not change the earlier ones. -/
theorem C144_prefix {ι ρ : Type} (v : ℕ → ℚ) (ph : Phys ι ρ) (is is' : List ℕ) (n : ℕ) :
    (pureLoop v ph (is ++ is') n).1.take is.length = (pureLoop v ph is n).1 := by
  rw [C144_again]
  have : ∀ (is : List ℕ) (n : ℕ), (pureLoop v ph is n).1.length = is.length := by
    intro is
    induction is with
    | nil => intro n; rfl
    | cons i is ih => intro n; simp [pureLoop, ih]
  rw [List.take_append_of_le_length (by rw [this]), List.take_of_length_le (by rw [this])]

end Verif.Streams
