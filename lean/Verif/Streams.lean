import Mathlib.Algebra.Order.Ring.Rat
import Mathlib.Data.List.Basic
import Mathlib.Data.List.GetD
import Mathlib.Tactic.Common
/-!
Model of which random number generator is used by which part of a population run:
`/repo/posydon/binary_evol/simulationproperties.py`, `load_steps` (l.354-378), `load_a_step` (l.386-477), `check_step` (l.552-555) and
`from_ini` (l.302-352); `/repo/posydon/popsyn/binarypopulation.py`, `BinaryPopulation.__init__` (l.157-197), `_safe_evolve` (l.294-352),
`BinaryGenerator` (l.987-1013, l.1028-1029, l.1097-1099); `/repo/posydon/popsyn/independent_sample.py` l.48-64 (one object of the Moe & Di Stefano
tables for the whole session) and `/repo/posydon/popsyn/Moes_distributions.py` l.117.

Simplifications: a generator is its seed and the number of draws made from it, `u seed n` is the `n`-th number of the seed (any function).  What is done with
the numbers is left open: sampling a binary and evolving it are arbitrary computations `Comp` that may draw as often as they like, depending
on the numbers drawn before.  A step is reduced to whether `RNG` is one of its options, whether its class refuses the options given
(`TypeError`), and the generator it has when it is made without options.  Loading reads no files here; it does not fail.
-/
namespace Verif.Streams

/-- The seed of a generator: a number given by the user, or the `k`-th entropy taken from the operating system (`default_rng()`). -/
inductive Seed
  | given (e : ℕ)
  | system (k : ℕ)
  deriving DecidableEq

/-- A generator object. -/
structure Gen where
  seed : Seed
  pos : ℕ
  deriving DecidableEq

/-- All generator objects of the session; a reference to one is its position. -/
abbrev Heap := List Gen

/-- A computation that draws from generators known by name (`σ`) and returns a value. -/
inductive Comp (σ α : Type)
  | ret (a : α)
  | draw (s : σ) (k : ℚ → Comp σ α)

/-- Running a computation: `env` gives the generator behind each name.  A name without a generator is an `AttributeError`, the result is `none`
(the binary is then marked as failed, l.371-376). -/
def run {σ α : Type} (u : Seed → ℕ → ℚ) (env : σ → Option ℕ) : Comp σ α → Heap → Option α × Heap
  | .ret a, h => (some a, h)
  | .draw s k, h =>
    match env s with
    | none => (none, h)
    | some g =>
      match h[g]? with
      | none => (none, h)
      | some x => run u env (k (u x.seed x.pos)) (h.set g ⟨x.seed, x.pos + 1⟩)

/-- The two sources of the sampling of initial conditions: the option `RNG`, and the generator kept by the object of Moe & Di Stefano. -/
inductive Src
  | option
  | moe
  deriving DecidableEq

/-- The physics of a run: sampling the binary of an index, evolving it.  Steps are known by their position in the table of steps. -/
structure Phys (ι ρ : Type) where
  sample : ℕ → Comp Src ι
  evolve : ι → Comp ℕ ρ

/-- A step of the table: `"RNG" in DEFAULT_KWARGS`, whether its class raises `TypeError` for the options, and its generator when made without options. -/
structure Step where
  draws : Bool
  refuses : Bool
  own : Option ℕ
  deriving DecidableEq

/-- `SimulationProperties`: the table of steps, the option `RNG` of each step, and the generators of the loaded steps (`steps_loaded`). -/
structure Props where
  steps : List Step
  opts : ℕ → Option ℕ
  loaded : Option (List (Option ℕ))

/-- `check_step`, l.552-553: the option `RNG` of a step after the check. -/
def checked (st : Step) (opt : Option ℕ) (rng : ℕ) : Option ℕ := if st.draws then some rng else opt

/-- `load_a_step`, l.459-472: the generator of the loaded step. -/
def stepGen (st : Step) (opt : Option ℕ) (rng : ℕ) : Option ℕ := if st.refuses then st.own else checked st opt rng

/-- `load_steps`, l.374-378; the options of the steps are the dictionaries of the caller and are changed in place. -/
def loadSteps (p : Props) (rng : ℕ) : Props :=
  { p with
    opts := fun i => match p.steps[i]? with
      | none => p.opts i
      | some st => checked st (p.opts i) rng
    loaded := some (p.steps.mapIdx fun i st => stepGen st (p.opts i) rng) }

/-- The session: the generators, and the object of Moe & Di Stefano (the generator it was made with, if it exists; global variable of the
module, l.23). -/
structure Session where
  heap : Heap
  moe : Option ℕ

/-- The generators made when the module `simulationproperties` is imported (defaults of `from_ini`, `load_steps`, `load_a_step`): the first three. -/
def importTime : Heap := [⟨.system 0, 0⟩, ⟨.system 1, 0⟩, ⟨.system 2, 0⟩]
def fromIniDefault : ℕ := 0
def loadStepsDefault : ℕ := 1
def loadStepDefault : ℕ := 2

/-- `BinaryPopulation.__init__`, l.157-193, without `comm` and `JOB_ID`: a new generator of the entropy given (or of the operating system). -/
def newPop (s : Session) (entropy : Option ℕ) (os : ℕ) : Session × ℕ :=
  ({ s with heap := s.heap ++ [⟨match entropy with | some e => .given e | none => .system os, 0⟩] }, s.heap.length)

/-- `SimulationProperties.from_ini(path, load_steps=True)` without `RNG`. -/
def fromIniLoaded (steps : List Step) (opts : ℕ → Option ℕ) : Props := loadSteps ⟨steps, opts, none⟩ fromIniDefault

/-- `independent_sample.py` l.53-57: the object of Moe & Di Stefano after a binary has been sampled. -/
def moeAfter (useMoe : Bool) (m : Option ℕ) (rng : ℕ) : Option ℕ := if useMoe then some (m.getD rng) else m

/-- The generators behind the names used in sampling. -/
def srcEnv (m : Option ℕ) (rng : ℕ) : Src → Option ℕ
  | .option => some rng
  | .moe => m

/-- One turn of the loop of `_safe_evolve`, l.346-361: sample the binary, then evolve it. -/
def oneBinary {ι ρ : Type} (u : Seed → ℕ → ℚ) (ph : Phys ι ρ) (useMoe : Bool) (gens : List (Option ℕ)) (rng i : ℕ) (s : Session) :
    Option (ι × Option ρ) × Session :=
  let m := moeAfter useMoe s.moe rng
  match run u (srcEnv m rng) (ph.sample i) s.heap with
  | (none, h) => (none, ⟨h, m⟩)
  | (some b, h) =>
    let r := run u (fun j => (gens[j]?).join) (ph.evolve b) h
    (some (b, r.1), ⟨r.2, m⟩)

/-- The loop over the indices. -/
def loop {ι ρ : Type} (u : Seed → ℕ → ℚ) (ph : Phys ι ρ) (useMoe : Bool) (gens : List (Option ℕ)) (rng : ℕ) :
    List ℕ → Session → List (Option (ι × Option ρ)) × Session
  | [], s => ([], s)
  | i :: is, s =>
    let b := oneBinary u ph useMoe gens rng i s
    let r := loop u ph useMoe gens rng is b.2
    (b.1 :: r.1, r.2)

/-- `_safe_evolve`, l.297-309: the steps are loaded with the generator of the population unless they are loaded already. -/
def ready (p : Props) (rng : ℕ) : Props := if p.loaded.isSome then p else loadSteps p rng

/-- `_safe_evolve`: the results, the session and the properties afterwards. -/
def evolvePop {ι ρ : Type} (u : Seed → ℕ → ℚ) (ph : Phys ι ρ) (useMoe : Bool) (s : Session) (p : Props) (rng : ℕ) (indices : List ℕ) :
    List (Option (ι × Option ρ)) × Session × Props :=
  let p' := ready p rng
  let r := loop u ph useMoe (p'.loaded.getD []) rng indices s
  (r.1, r.2, p')

/-- `BinaryGenerator`: its own generator, and the one it is given as option by the caller (`kwargs.get('RNG', self.RNG)`, l.1099). -/
def usedBy (own : ℕ) (given : Option ℕ) : ℕ := given.getD own

/-- `reset_rng`, l.1004-1013: a new generator of the entropy. -/
def resetRng (h : Heap) (own : ℕ) : Heap × ℕ :=
  match h[own]? with
  | none => (h, own)
  | some x => (h ++ [⟨x.seed, 0⟩], h.length)

/-- The alarm of `BinaryStar.evolve` (l.254, l.263): the computation is cut off after `n` draws, the binary is marked as failed. -/
def Comp.cut {σ α : Type} (failed : α) : ℕ → Comp σ α → Comp σ α
  | _, .ret a => .ret a
  | 0, .draw _ _ => .ret failed
  | n + 1, .draw s k => .draw s fun x => (k x).cut failed n

/-! Specification: everything is drawn from one stream. -/

/-- A computation on one stream of numbers, from position `n` on. -/
def pureRun {σ α : Type} (v : ℕ → ℚ) : Comp σ α → ℕ → α × ℕ
  | .ret a, n => (a, n)
  | .draw _ k, n => pureRun v (k (v n)) (n + 1)

/-- A population on one stream of numbers. -/
def pureLoop {ι ρ : Type} (v : ℕ → ℚ) (ph : Phys ι ρ) : List ℕ → ℕ → List (ι × ρ) × ℕ
  | [], n => ([], n)
  | i :: is, n =>
    let b := pureRun v (ph.sample i) n
    let e := pureRun v (ph.evolve b.1) b.2
    let r := pureLoop v ph is e.2
    ((b.1, e.1) :: r.1, r.2)

/-- All names a computation draws from satisfy `P`. -/
def Comp.Uses {σ α : Type} (P : σ → Prop) : Comp σ α → Prop
  | .ret _ => True
  | .draw s k => P s ∧ ∀ x, (k x).Uses P

/-! Lemmas. -/

theorem run_single {σ α : Type} (u : Seed → ℕ → ℚ) (env : σ → Option ℕ) (g : ℕ) (seed : Seed) (c : Comp σ α) :
    ∀ (h : Heap) (n : ℕ), c.Uses (fun s => env s = some g) → h[g]? = some ⟨seed, n⟩ →
      run u env c h = (some (pureRun (u seed) c n).1, h.set g ⟨seed, (pureRun (u seed) c n).2⟩) := by
  induction c with
  | ret a =>
    intro h n _ hg
    obtain ⟨hl, he⟩ := List.getElem?_eq_some_iff.mp hg
    simp only [run, pureRun, Prod.mk.injEq, true_and]
    rw [← he, List.set_getElem_self]
  | draw s k ih =>
    intro h n hu hg
    have hl := (List.getElem?_eq_some_iff.mp hg).1
    simp only [run, hu.1, hg]
    rw [ih _ (h.set g ⟨seed, n + 1⟩) (n + 1) (hu.2 _) (by rw [List.getElem?_set_self hl])]
    simp only [pureRun, List.set_set]

theorem run_heap {σ α : Type} (u : Seed → ℕ → ℚ) (env : σ → Option ℕ) (g : ℕ) (c : Comp σ α) :
    ∀ h : Heap, c.Uses (fun s => env s ≠ some g) → (run u env c h).2[g]? = h[g]? := by
  induction c with
  | ret a => intro h _; rfl
  | draw s k ih =>
    intro h hu
    simp only [run]
    cases he : env s with
    | none => rfl
    | some g' =>
      dsimp only
      cases hx : h[g']? with
      | none => rfl
      | some x =>
        dsimp only
        rw [ih _ _ (hu.2 _)]
        have : g' ≠ g := fun e => hu.1 (e ▸ he)
        exact List.getElem?_set_ne this

theorem run_length {σ α : Type} (u : Seed → ℕ → ℚ) (env : σ → Option ℕ) (c : Comp σ α) :
    ∀ h : Heap, (run u env c h).2.length = h.length := by
  induction c with
  | ret a => intro h; rfl
  | draw s k ih =>
    intro h
    simp only [run]
    cases he : env s with
    | none => rfl
    | some g' =>
      dsimp only
      cases hx : h[g']? with
      | none => rfl
      | some x => dsimp only; rw [ih]; simp

theorem Comp.Uses.mono {σ α : Type} {P Q : σ → Prop} (h : ∀ s, P s → Q s) (c : Comp σ α) : c.Uses P → c.Uses Q := by
  induction c with
  | ret a => intro _; trivial
  | draw s k ih => intro hc; exact ⟨h _ hc.1, fun x => ih x (hc.2 x)⟩

theorem Comp.Uses.all {σ α : Type} {P : σ → Prop} (h : ∀ s, P s) (c : Comp σ α) : c.Uses P := by
  induction c with
  | ret a => trivial
  | draw s k ih => exact ⟨h s, ih⟩

theorem loop_single {ι ρ : Type} (u : Seed → ℕ → ℚ) (ph : Phys ι ρ) (useMoe : Bool) (gens : List (Option ℕ)) (rng : ℕ) (seed : Seed)
    (hs : ∀ i, (ph.sample i).Uses fun x => useMoe = true ∨ x = .option)
    (he : ∀ b, (ph.evolve b).Uses fun j => (gens[j]?).join = some rng) :
    ∀ (is : List ℕ) (s : Session) (n : ℕ), s.heap[rng]? = some ⟨seed, n⟩ → (useMoe = true → s.moe = none ∨ s.moe = some rng) →
      (loop u ph useMoe gens rng is s).1 = (pureLoop (u seed) ph is n).1.map (fun x => some (x.1, some x.2)) ∧
      (loop u ph useMoe gens rng is s).2.heap = s.heap.set rng ⟨seed, (pureLoop (u seed) ph is n).2⟩ := by
  intro is
  induction is with
  | nil =>
    intro s n hg _
    obtain ⟨hl, he⟩ := List.getElem?_eq_some_iff.mp hg
    refine ⟨rfl, ?_⟩
    simp only [loop, pureLoop]
    rw [← he, List.set_getElem_self]
  | cons i is ih =>
    intro s n hg hm
    have hl := (List.getElem?_eq_some_iff.mp hg).1
    have hmoe : useMoe = true → moeAfter useMoe s.moe rng = some rng := by
      intro hu
      rcases hm hu with h | h <;> simp [moeAfter, hu, h]
    have h1 := run_single u (srcEnv (moeAfter useMoe s.moe rng) rng) rng seed (ph.sample i) s.heap n
      (Comp.Uses.mono (fun x hx => by
        rcases hx with hu | rfl
        · cases x with
          | option => rfl
          | moe => exact hmoe hu
        · rfl) _ (hs i)) hg
    have h2 := run_single u (fun j => (gens[j]?).join) rng seed (ph.evolve (pureRun (u seed) (ph.sample i) n).1)
      (s.heap.set rng ⟨seed, (pureRun (u seed) (ph.sample i) n).2⟩) (pureRun (u seed) (ph.sample i) n).2 (he _)
      (by rw [List.getElem?_set_self hl])
    have h3 : oneBinary u ph useMoe gens rng i s =
        (some ((pureRun (u seed) (ph.sample i) n).1,
            some (pureRun (u seed) (ph.evolve (pureRun (u seed) (ph.sample i) n).1) (pureRun (u seed) (ph.sample i) n).2).1),
          ⟨s.heap.set rng ⟨seed, (pureRun (u seed) (ph.evolve (pureRun (u seed) (ph.sample i) n).1) (pureRun (u seed) (ph.sample i) n).2).2⟩,
            moeAfter useMoe s.moe rng⟩) := by
      simp only [oneBinary, h1, h2, List.set_set]
    have h4 := ih _ _ (show (oneBinary u ph useMoe gens rng i s).2.heap[rng]? = some ⟨seed, _⟩ by
      rw [h3]; exact List.getElem?_set_self hl) (fun hu => by rw [h3]; exact .inr (hmoe hu))
    simp only [loop, pureLoop, List.map_cons, h4.1, h4.2]
    rw [h3]
    exact ⟨rfl, List.set_set ..⟩

theorem loaded_gen (p : Props) (rng j : ℕ) (st : Step) (h : p.steps[j]? = some st) :
    ((((loadSteps p rng).loaded.getD [])[j]?).join : Option ℕ) = stepGen st (p.opts j) rng := by
  simp [loadSteps, List.getElem?_mapIdx, h]

end Verif.Streams
