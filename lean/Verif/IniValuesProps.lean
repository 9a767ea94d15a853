import Verif.IniValues
import Mathlib.Tactic.Linarith
import Mathlib.Tactic.Ring
import Mathlib.Algebra.Order.Floor.Ring
import Mathlib.Algebra.Order.Field.Basic

/-! # C117: values and sections of ini files -/

namespace Verif.IniValues

/-! ### Arithmetic -/

/-- The number an expression stands for in mathematics. -/
inductive Means : Expr → ℚ → Prop
  | num (q : ℚ) : Means (.num q) q
  | add {a b : Expr} {p q : ℚ} : Means a p → Means b q → Means (.bin .add a b) (p + q)
  | sub {a b : Expr} {p q : ℚ} : Means a p → Means b q → Means (.bin .sub a b) (p - q)
  | mul {a b : Expr} {p q : ℚ} : Means a p → Means b q → Means (.bin .mul a b) (p * q)
  | div {a b : Expr} {p q : ℚ} : Means a p → Means b q → q ≠ 0 → Means (.bin .div a b) (p / q)
  | mod {a b : Expr} {p q : ℚ} (n : ℤ) (r : ℚ) : Means a p → Means b q → p = q * n + r → (0 < q → 0 ≤ r ∧ r < q) →
      (q < 0 → q < r ∧ r ≤ 0) → q ≠ 0 → Means (.bin .mod a b) r

/-- Expressions of numbers and the five operations. -/
inductive Arith : Expr → Prop
  | num (q : ℚ) : Arith (.num q)
  | bin {o : Op} {a b : Expr} : o ≠ .other → Arith a → Arith b → Arith (.bin o a b)

theorem mod_unique {p q r : ℚ} {n : ℤ} (h : p = q * n + r) (h1 : 0 < q → 0 ≤ r ∧ r < q) (h2 : q < 0 → q < r ∧ r ≤ 0)
    (hq : q ≠ 0) : pyMod p q = r := by
  have hf : ⌊p / q⌋ = n := by
    rw [Int.floor_eq_iff]
    have hd : p / q = n + r / q := by rw [h]; field_simp
    rw [hd]
    rcases lt_or_gt_of_ne hq with hneg | hpos
    · obtain ⟨a, b⟩ := h2 hneg
      have hr : 0 ≤ r / q := div_nonneg_of_nonpos b hneg.le
      have hr1 : r / q < 1 := by rw [div_lt_one_of_neg hneg]; exact a
      exact ⟨by linarith, by linarith⟩
    · obtain ⟨a, b⟩ := h1 hpos
      have hr : 0 ≤ r / q := div_nonneg a hpos.le
      have hr1 : r / q < 1 := (div_lt_one hpos).2 b
      exact ⟨by linarith, by linarith⟩
  unfold pyMod
  rw [hf, h]
  ring

theorem mod_spec (p : ℚ) {q : ℚ} (hq : q ≠ 0) : p = q * ⌊p / q⌋ + pyMod p q ∧ (0 < q → 0 ≤ pyMod p q ∧ pyMod p q < q) ∧
    (q < 0 → q < pyMod p q ∧ pyMod p q ≤ 0) := by
  have h1 := Int.floor_le (p / q)
  have h2 := Int.lt_floor_add_one (p / q)
  have hp : p = q * (p / q) := by field_simp
  refine ⟨by unfold pyMod; ring, ?_, ?_⟩
  · intro h
    have a := mul_le_mul_of_nonneg_left h1 h.le
    have b := mul_lt_mul_of_pos_left h2 h
    unfold pyMod
    constructor <;> linarith
  · intro h
    have a := mul_le_mul_of_nonpos_left h1 h.le
    have b := mul_lt_mul_of_neg_left h2 h
    unfold pyMod
    constructor <;> linarith

/-- Expressions of numbers are evaluated to the number they stand for. -/
theorem C117_arith {e : Expr} {q : ℚ} (h : Means e q) : eval e = .ok (.num q) := by
  induction h with
  | num q => rfl
  | add _ _ ha hb => simp [eval, ha, hb, apply, Value.asNum]
  | sub _ _ ha hb => simp [eval, ha, hb, apply, Value.asNum]
  | mul _ _ ha hb => simp [eval, ha, hb, apply, Value.asNum]
  | div _ _ hq ha hb => simp [eval, ha, hb, apply, Value.asNum, hq]
  | mod n r _ _ h h1 h2 hq ha hb => simp [eval, ha, hb, apply, Value.asNum, hq, mod_unique h h1 h2 hq]

/-- The evaluation of an arithmetic expression gives the number it stands for, or stops at a division by zero. -/
theorem C117_arith_total {e : Expr} (h : Arith e) :
    (∃ q, eval e = .ok (.num q) ∧ Means e q) ∨ (eval e = .error .zeroDivision ∧ ∀ q, ¬ Means e q) := by
  have hm : ∀ e : Expr, eval e = .error .zeroDivision → ∀ q, ¬ Means e q := by
    intro e he q hq
    rw [C117_arith hq] at he
    cases he
  suffices hs : (∃ q, eval e = .ok (.num q) ∧ Means e q) ∨ eval e = .error .zeroDivision by
    rcases hs with hs | hs
    · exact Or.inl hs
    · exact Or.inr ⟨hs, hm e hs⟩
  induction h with
  | num q => exact Or.inl ⟨q, rfl, .num q⟩
  | @bin o a b ho _ _ ha hb =>
    rcases ha with ⟨p, hp, mp⟩ | ha
    · rcases hb with ⟨q, hq, mq⟩ | hb
      · cases o with
        | other => exact absurd rfl ho
        | add => exact Or.inl ⟨p + q, by simp [eval, hp, hq, apply, Value.asNum], .add mp mq⟩
        | sub => exact Or.inl ⟨p - q, by simp [eval, hp, hq, apply, Value.asNum], .sub mp mq⟩
        | mul => exact Or.inl ⟨p * q, by simp [eval, hp, hq, apply, Value.asNum], .mul mp mq⟩
        | div =>
          by_cases h0 : q = 0
          · exact Or.inr (by simp [eval, hp, hq, apply, Value.asNum, h0])
          · exact Or.inl ⟨p / q, by simp [eval, hp, hq, apply, Value.asNum, h0], .div mp mq h0⟩
        | mod =>
          by_cases h0 : q = 0
          · exact Or.inr (by simp [eval, hp, hq, apply, Value.asNum, h0])
          · obtain ⟨s1, s2, s3⟩ := mod_spec p h0
            exact Or.inl ⟨pyMod p q, by simp [eval, hp, hq, apply, Value.asNum, h0], .mod _ _ mp mq s1 s2 s3 h0⟩
      · exact Or.inr (by simp [eval, hp, hb, ho])
    · exact Or.inr (by simp [eval, ha, ho])

/-- Lists are evaluated element by element. -/
theorem C117_list (l : List Expr) (vs : List Value) :
    eval (.list l) = .ok (.list vs) ↔ List.Forall₂ (fun e v => eval e = .ok v) l vs := by
  have hl : ∀ (l : List Expr) (vs : List Value), evalList l = .ok vs ↔ List.Forall₂ (fun e v => eval e = .ok v) l vs := by
    intro l
    induction l with
    | nil =>
      intro vs
      constructor
      · intro h
        unfold evalList at h
        cases h
        exact .nil
      · intro h
        cases h
        unfold evalList
        rfl
    | cons e l ih =>
      intro vs
      constructor
      · intro h
        unfold evalList at h
        cases he : eval e with
        | error x => rw [he] at h; cases h
        | ok v =>
          cases hr : evalList l with
          | error x => rw [he, hr] at h; cases h
          | ok r =>
            rw [he, hr] at h
            cases h
            exact .cons he ((ih r).1 hr)
      · intro h
        cases h with
        | cons h1 h2 =>
          unfold evalList
          rw [h1, (ih _).2 h2]
  rw [← hl]
  unfold eval
  cases evalList l with
  | error x => simp
  | ok r => simp

/-- The pieces of a text: none has a comma, and joined with commas they are the text. -/
theorem C117_parts (s : Name) : (∀ p ∈ parts s, ',' ∉ p) ∧ List.intercalate [','] (parts s) = s := by
  induction s with
  | nil => exact ⟨by simp [parts], rfl⟩
  | cons c s ih =>
    obtain ⟨h1, h2⟩ := ih
    unfold parts
    by_cases h : c = ','
    · rw [if_pos h]
      subst h
      refine ⟨?_, ?_⟩
      · intro p hp
        rcases List.mem_cons.1 hp with rfl | hp
        · simp
        · exact h1 p hp
      · cases hp : parts s with
        | nil => exact absurd hp (parts_ne s)
        | cons a r =>
          rw [hp] at h2
          rw [← h2]
          simp [List.intercalate, List.intersperse]
    · rw [if_neg h]
      cases hp : parts s with
      | nil => exact absurd hp (parts_ne s)
      | cons a r =>
        rw [hp] at h1 h2
        refine ⟨?_, ?_⟩
        · intro p hm
          rcases List.mem_cons.1 hm with rfl | hm
          · intro hc
            rcases List.mem_cons.1 hc with hc | hc
            · exact h hc.symm
            · exact h1 a (by simp) hc
          · exact h1 p (by simp [hm])
        · rw [← h2]
          cases r with
          | nil => simp [List.intercalate]
          | cons b r => simp [List.intercalate, List.intersperse]

/-- A quoted text stays as it is without comma, and is cut at the commas, without blanks, otherwise. -/
theorem C117_text (s : Name) : (',' ∉ s → eval (.str s) = .ok (.text s)) ∧
    (',' ∈ s → ∃ ps : List Name, eval (.str s) = .ok (.list (ps.map .text)) ∧ (∀ p ∈ ps, ',' ∉ p ∧ ' ' ∉ p) ∧
      List.intercalate [','] ps = s.filter (· ≠ ' ')) := by
  constructor
  · intro h
    simp [eval, h]
  · intro h
    obtain ⟨h1, h2⟩ := C117_parts (noBlanks s)
    refine ⟨parts (noBlanks s), by simp [eval, h], fun p hp => ⟨h1 p hp, ?_⟩, h2⟩
    intro hb
    have : ' ' ∈ List.intercalate [','] (parts (noBlanks s)) := by
      clear h1 h2
      generalize parts (noBlanks s) = l at hp
      induction l with
      | nil => cases hp
      | cons a r ih =>
        cases r with
        | nil =>
          rw [List.mem_singleton] at hp
          subst hp
          simpa [List.intercalate] using hb
        | cons b r =>
          rcases List.mem_cons.1 hp with rfl | hp
          · simp [List.intercalate, List.intersperse, hb]
          · have := ih hp
            simp only [List.intercalate, List.intersperse, List.flatten_cons, List.mem_append] at this ⊢
            exact Or.inr (Or.inr this)
    rw [h2] at this
    simp [noBlanks] at this

/-- The value of an option: the evaluated expression, else what JSON reads, else the text or its pieces. -/
theorem C117_value (o : Opt) :
    (∀ e v, o.ast = some e → eval e = .ok v → o.value = v) ∧
    ((∀ e v, o.ast = some e → eval e ≠ .ok v) → ∀ v, o.json = some v → o.value = v) ∧
    ((∀ e v, o.ast = some e → eval e ≠ .ok v) → o.json = none → ',' ∉ o.raw → o.value = .text o.raw) ∧
    ((∀ e v, o.ast = some e → eval e ≠ .ok v) → o.json = none → ',' ∈ o.raw →
      o.value = .list ((parts (noBlanks o.raw)).map .text)) := by
  have hn : (∀ e v, o.ast = some e → eval e ≠ .ok v) → o.value =
      (match o.json with
      | some v => v
      | none => if ',' ∈ o.raw then Value.list ((parts (noBlanks o.raw)).map .text) else .text o.raw) := by
    intro h
    unfold Opt.value
    cases ha : o.ast with
    | none => rfl
    | some e =>
      cases he : eval e with
      | error x =>
        simp only [Option.map_some, he]
        cases o.json <;> rfl
      | ok v => exact absurd he (h e v ha)
  refine ⟨?_, ?_, ?_, ?_⟩
  · intro e v he hv
    unfold Opt.value
    simp only [he, Option.map_some, hv]
  · intro h v hv
    rw [hn h, hv]
  · intro h hj hc
    rw [hn h, hj]
    simp [hc]
  · intro h hj hc
    rw [hn h, hj]
    simp [hc]

/-- Violated: `-1*2` is not evaluated and stays a text. -/
theorem C117_sign_violated : ∃ o : Opt, o.raw = (chars! "-1*2") ∧ o.ast = some (.bin .mul (.neg (.num 1)) (.num 2)) ∧ o.json = none ∧
    o.value = .text (chars! "-1*2") :=
  ⟨⟨(chars! "-1*2"), some (.bin .mul (.neg (.num 1)) (.num 2)), none⟩, rfl, rfl, rfl, rfl⟩

/-- Violated: in a list with a text a negative number breaks the list: it is cut into texts with the brackets. -/
theorem C117_list_violated : ∃ o : Opt, o.raw = (chars! "[-1, 'a']") ∧ o.ast = some (.list [.neg (.num 1), .str ['a']]) ∧ o.json = none ∧
    o.value = .list [.text (chars! "[-1"), .text (chars! "'a']")] :=
  ⟨⟨(chars! "[-1, 'a']"), some (.list [.neg (.num 1), .str ['a']]), none⟩, rfl, rfl, rfl, rfl⟩

/-- Any expression with a sign, a name, a call or a power below operations is not evaluated. -/
inductive Blocked : Expr → Prop
  | neg (a : Expr) : Blocked (.neg a)
  | other : Blocked .other
  | pow (a b : Expr) : Blocked (.bin .other a b)
  | left {o : Op} {a : Expr} (b : Expr) : Blocked a → Blocked (.bin o a b)
  | right {o : Op} (a : Expr) {b : Expr} : Blocked b → Blocked (.bin o a b)
  | elem {l : List Expr} {a : Expr} : a ∈ l → Blocked a → Blocked (.list l)

theorem C117_blocked {e : Expr} (h : Blocked e) (v : Value) : eval e ≠ .ok v := by
  induction h generalizing v with
  | neg a => simp [eval]
  | other => simp [eval]
  | pow a b => simp [eval]
  | @left o a b _ ih =>
    unfold eval
    by_cases ho : o = .other
    · rw [if_pos ho]; simp
    · rw [if_neg ho]
      cases ha : eval a with
      | error x => simp
      | ok x => exact absurd ha (ih x)
  | @right o a b _ ih =>
    unfold eval
    by_cases ho : o = .other
    · rw [if_pos ho]; simp
    · rw [if_neg ho]
      cases ha : eval a with
      | error x => simp
      | ok x =>
        cases hb : eval b with
        | error x => simp
        | ok y => exact absurd hb (ih y)
  | @elem l a hm _ ih =>
    intro he
    have : ∃ vs, v = .list vs := by
      unfold eval at he
      cases hl : evalList l with
      | error x => rw [hl] at he; cases he
      | ok r => rw [hl] at he; cases he; exact ⟨r, rfl⟩
    obtain ⟨vs, rfl⟩ := this
    have hf := (C117_list l vs).1 he
    clear he
    induction hf with
    | nil => cases hm
    | cons h1 _ ih2 =>
      rcases List.mem_cons.1 hm with rfl | hm
      · exact ih _ h1
      · exact ih2 hm

/-! ### Sections of the file for grids -/

/-- Every option is there under its name in lower case. -/
theorem C117_section (m : Opt) (opts : List (Name × Opt)) (hn : (opts.map fun p => lower p.1).Nodup) (k : Name) (o : Opt)
    (h : (k, o) ∈ opts) : (sectionDict m opts).get (lower k) = some o.value := by
  unfold sectionDict
  rw [get_merge]
  · have hl : (opts.map fun p => (lower p.1, p.2.value)).lookup (lower k) = some o.value := by
      clear m
      induction opts with
      | nil => cases h
      | cons p r ih =>
        obtain ⟨a, b⟩ := p
        rw [List.map_cons, List.nodup_cons] at hn
        rcases List.mem_cons.1 h with he | hr
        · cases he
          simp
        · have : lower k ≠ lower a := by
            intro he
            apply hn.1
            show lower a ∈ _
            rw [← he]
            exact List.mem_map.2 ⟨(k, o), hr, rfl⟩
          simp only [List.map_cons, List.lookup, show (lower k == lower a) = false by simpa using this]
          exact ih hn.2 hr
    unfold Dict.get
    rw [List.lookup_append, hl]
    rfl
  · rw [List.map_append, List.map_map]
    have he : ((fun x : Name × Value => x.1) ∘ fun p : Name × Opt => (lower p.1, p.2.value)) = fun p => lower p.1 := rfl
    rw [he]
    by_cases hm : (chars! "mesa_dir") ∈ opts.map fun p => lower p.1
    · rw [if_pos hm]
      simpa using hn
    · rw [if_neg hm]
      rw [List.nodup_append]
      refine ⟨hn, by simp, ?_⟩
      intro a ha b hb
      simp only [List.map_cons, List.map_nil, List.mem_singleton] at hb
      subst hb
      rintro rfl
      exact hm ha

/-- Every section has the directory of MESA, from the environment if the section does not set it. -/
theorem C117_mesa_dir (m : Opt) (opts : List (Name × Opt)) (hn : (opts.map fun p => lower p.1).Nodup)
    (h : (chars! "mesa_dir") ∉ opts.map fun p => lower p.1) : (sectionDict m opts).get (chars! "mesa_dir") = some m.value := by
  unfold sectionDict
  rw [if_neg h, get_merge]
  · unfold Dict.get
    have : (opts.map fun p => (lower p.1, p.2.value)).lookup (chars! "mesa_dir") = none := by
      apply lookup_none_of
      rw [List.map_map]
      exact h
    rw [List.lookup_append, this]
    simp
  · rw [List.map_append, List.map_map]
    have he : ((fun x : Name × Value => x.1) ∘ fun p : Name × Opt => (lower p.1, p.2.value)) = fun p => lower p.1 := rfl
    rw [he, List.nodup_append]
    refine ⟨hn, by simp, ?_⟩
    intro a ha b hb
    simp only [List.map_cons, List.map_nil, List.mem_singleton] at hb
    subst hb
    rintro rfl
    exact h ha

/-- The file is accepted if and only if the environment has the directory of MESA and all four sections are there; then there are four
results. -/
theorem C117_four (m : Option Opt) (secs : List (Name × List (Name × Opt))) :
    ((∃ r, parseIni m secs = .ok r) ↔ m.isSome ∧ (chars! "run_parameters") ∈ secs.map (·.1) ∧ (chars! "slurm") ∈ secs.map (·.1) ∧
      (chars! "mesa_inlists") ∈ secs.map (·.1) ∧ (chars! "mesa_extras") ∈ secs.map (·.1)) ∧
    ∀ m' r, m = some m' → parseIni m secs = .ok r → ∃ a b c d, r = [sectionDict m' a, sectionDict m' b, sectionDict m' c, sectionDict m' d] ∧
      secs.lookup (chars! "run_parameters") = some a ∧ secs.lookup (chars! "slurm") = some b ∧
      secs.lookup (chars! "mesa_inlists") = some c ∧ secs.lookup (chars! "mesa_extras") = some d := by
  have hl : ∀ k : Name, (secs.lookup k).isSome = true ↔ k ∈ secs.map (·.1) := by
    intro k
    induction secs with
    | nil => simp
    | cons p r ih =>
      obtain ⟨a, b⟩ := p
      by_cases h : k = a
      · subst h; simp
      · simp only [List.lookup, show (k == a) = false by simpa using h, List.map_cons, List.mem_cons, h, false_or]
        exact ih
  constructor
  · unfold parseIni
    cases m with
    | none => simp
    | some m =>
      by_cases h : (fourSections.all fun s => (secs.lookup s).isSome) = true
      · simp only [h, if_true]
        simp only [fourSections, List.all_cons, List.all_nil, Bool.and_true, Bool.and_eq_true, hl] at h
        constructor
        · intro _
          exact ⟨rfl, h⟩
        · intro _
          exact ⟨_, rfl⟩
      · simp only [h]
        simp only [fourSections, List.all_cons, List.all_nil, Bool.and_true, Bool.and_eq_true, hl] at h
        constructor
        · rintro ⟨r, hr⟩
          cases hr
        · intro hh
          exact absurd hh.2 h
  · intro m' r hm h
    subst hm
    unfold parseIni at h
    dsimp only at h
    by_cases hf : (fourSections.all fun s => (secs.lookup s).isSome) = true
    · rw [if_pos hf] at h
      simp only [fourSections, List.all_cons, List.all_nil, Bool.and_true, Bool.and_eq_true, Option.isSome_iff_exists] at hf
      obtain ⟨⟨a, ha⟩, ⟨b, hb⟩, ⟨c, hc⟩, d, hd⟩ := hf
      refine ⟨a, b, c, d, ?_, ha, hb, hc, hd⟩
      simp only [fourSections, List.map_cons, List.map_nil, ha, hb, hc, hd, Option.getD_some] at h
      exact (Except.ok.inj h).symm
    · rw [if_neg hf] at h
      cases h

/-! ### Populations -/

/-- The names that are set from the job. -/
def jobNames : List Name := [(chars! "comm"), (chars! "JOB_ID"), (chars! "RANK"), (chars! "size")]

/-- What the section of a star says about an option (specification): whether the star is part of the output, and if it is, all other options together. -/
def starSays (body : Section) (inc kw k : Name) : Option PVal :=
  if k = inc then ((body.lookup inc).join).map .lit
  else if k = kw then
    (match (body.lookup inc).join with
    | some i => if i.truthy then some (PVal.dict ((body.filter fun p => p.1 ≠ inc).filterMap fun p => p.2.map fun x => (p.1, x))) else none
    | none => none)
  else none

/-- What a section says about an option (specification). -/
def says1 (sec : Name) (body : Section) (k : Name) : Option PVal :=
  if sec = (chars! "BinaryPopulation_options") ∨ sec = (chars! "BinaryStar_output") then ((body.lookup k).join).map .lit
  else if sec = (chars! "SingleStar_1_output") then starSays body (chars! "include_S1") (chars! "S1_kwargs") k
  else if sec = (chars! "SingleStar_2_output") then starSays body (chars! "include_S2") (chars! "S2_kwargs") k
  else none

theorem says1_s1 (body : Section) (k : Name) : says1 s1Sec body k = starSays body (chars! "include_S1") (chars! "S1_kwargs") k := by
  unfold says1
  rw [if_neg (by decide), if_pos (by decide)]

theorem says1_s2 (body : Section) (k : Name) : says1 s2Sec body k = starSays body (chars! "include_S2") (chars! "S2_kwargs") k := by
  unfold says1
  rw [if_neg (by decide), if_neg (by decide), if_pos (by decide)]

theorem literals_get {s : Section} {l : Dict Lit} (h : literals s = .ok l) (k : Name) : l.get k = (s.lookup k).join := by
  unfold Dict.get
  induction s generalizing l with
  | nil => cases h; rfl
  | cons p s ih =>
    obtain ⟨a, v⟩ := p
    unfold literals at h
    cases v with
    | none => cases h
    | some v =>
      cases hr : literals s with
      | error e => rw [hr] at h; cases h
      | ok d =>
        rw [hr] at h
        cases h
        by_cases hk : k = a
        · subst hk; simp
        · simp only [List.lookup, show (k == a) = false by simpa using hk]
          exact ih hr

theorem literals_filter {s : Section} {l : Dict Lit} (h : literals s = .ok l) (f : Name → Bool) :
    l.filter (fun p => f p.1) = (s.filter fun p => f p.1).filterMap fun p => p.2.map fun x => (p.1, x) := by
  induction s generalizing l with
  | nil => cases h; rfl
  | cons p s ih =>
    obtain ⟨a, v⟩ := p
    unfold literals at h
    cases v with
    | none => cases h
    | some v =>
      cases hr : literals s with
      | error e => rw [hr] at h; cases h
      | ok d =>
        rw [hr] at h
        cases h
        by_cases hk : f a
        · simp [hk, ih hr]
        · simp [hk, ih hr]

theorem starSec_get {d d' : Dict PVal} {inc kw : Name} {body : Section} {l : Dict Lit} (hl : literals body = .ok l) (hne : inc ≠ kw)
    (h : starSec d inc kw l = .ok d') (k : Name) : d'.get k = (starSays body inc kw k).or (d.get k) := by
  have hf := literals_filter hl (fun a => a ≠ inc)
  unfold starSec at h
  unfold starSays
  rw [literals_get hl] at h
  cases hi : (body.lookup inc).join with
  | none => rw [hi] at h; cases h
  | some v =>
    rw [hi] at h
    have h := Except.ok.inj h
    subst h
    rw [hf]
    by_cases ht : v.truthy = true
    · simp only [ht, if_true, get_put]
      by_cases h1 : k = inc
      · subst h1; simp [hne]
      · by_cases h2 : k = kw
        · subst h2; simp [h1]
        · simp [h1, h2]
    · simp only [Bool.not_eq_true] at ht
      simp only [ht]
      by_cases h1 : k = inc
      · subst h1; simp [get_put]
      · by_cases h2 : k = kw
        · subst h2; simp [h1, get_put]
        · simp [h1, h2, get_put]

theorem job_keys {e : Env} {b : Bool} {j : Dict PVal} (h : jobEntries e b = .ok j) :
    (j.map (·.1)).Nodup ∧ ∀ k ∈ j.map (·.1), k ∈ jobNames := by
  unfold jobEntries at h
  by_cases h1 : (b && e.job.isSome) = true
  · rw [if_pos h1] at h; cases h
  · rw [if_neg h1] at h
    by_cases h2 : b = true
    · rw [if_pos h2] at h
      cases h
      exact ⟨by decide, by decide⟩
    · rw [if_neg h2] at h
      cases hj : e.job with
      | none =>
        rw [hj] at h
        cases h
        exact ⟨by decide, by decide⟩
      | some t =>
        obtain ⟨x, y, z⟩ := t
        rw [hj] at h
        cases h
        refine ⟨?_, ?_⟩
        · show [(chars! "comm"), (chars! "JOB_ID"), (chars! "RANK"), (chars! "size")].Nodup
          decide
        · show ∀ k ∈ [(chars! "comm"), (chars! "JOB_ID"), (chars! "RANK"), (chars! "size")], k ∈ jobNames
          decide

theorem step_get {e : Env} {d d' : Dict PVal} {sec : Name} {body : Section} (hn : (body.map (·.1)).Nodup)
    (h : popStep e d sec body = .ok d') {k : Name} (hk : k ∉ jobNames) : d'.get k = (says1 sec body k).or (d.get k) := by
  unfold popStep at h
  by_cases h1 : sec = popSec
  · rw [if_pos h1] at h
    cases hl : literals body with
    | error x => rw [hl] at h; cases h
    | ok l =>
      rw [hl] at h
      dsimp only at h
      have hnl : ((lits l).map (·.1)).Nodup := by
        have : (lits l).map (·.1) = l.map (·.1) := by simp [lits]
        rw [this, literals_keys hl]; exact hn
      cases hv : (merge d (lits l)).get (chars! "use_MPI") with
      | none => rw [hv] at h; cases h
      | some v =>
        rw [hv] at h
        dsimp only at h
        generalize v.isTrue = b at h
        cases hj : jobEntries e b with
        | error x => rw [hj] at h; cases h
        | ok j =>
          rw [hj] at h
          have h := Except.ok.inj h
          subst h
          obtain ⟨hj1, hj2⟩ := job_keys hj
          rw [get_merge _ _ hj1]
          have : j.get k = none := lookup_none_of fun hm => hk (hj2 k hm)
          rw [this, Option.none_or, get_merge _ _ hnl, get_lits, literals_get hl]
          unfold says1
          simp [h1, popSec]
  · rw [if_neg h1] at h
    by_cases h2 : sec = binSec
    · rw [if_pos h2] at h
      cases hl : literals body with
      | error x => rw [hl] at h; cases h
      | ok l =>
        rw [hl] at h
        have h := Except.ok.inj h
        subst h
        have hnl : ((lits l).map (·.1)).Nodup := by
          have : (lits l).map (·.1) = l.map (·.1) := by simp [lits]
          rw [this, literals_keys hl]; exact hn
        rw [get_merge _ _ hnl, get_lits, literals_get hl]
        unfold says1
        simp [h2, binSec]
    · rw [if_neg h2] at h
      by_cases h3 : sec = s1Sec
      · rw [if_pos h3] at h
        cases hl : literals body with
        | error x => rw [hl] at h; cases h
        | ok l =>
          rw [hl] at h
          dsimp only at h
          rw [starSec_get hl (by decide) h k, h3, says1_s1]
      · rw [if_neg h3] at h
        by_cases h4 : sec = s2Sec
        · rw [if_pos h4] at h
          cases hl : literals body with
          | error x => rw [hl] at h; cases h
          | ok l =>
            rw [hl] at h
            dsimp only at h
            rw [starSec_get hl (by decide) h k, h4, says1_s2]
        · rw [if_neg h4] at h
          have h := Except.ok.inj h
          subst h
          unfold says1
          simp only [popSec, binSec, s1Sec, s2Sec] at h1 h2 h3 h4
          simp only [h1, h2, h3, h4, or_self, if_false, Option.none_or]

/-- An option of a population, other than those of the job, has the value given by the last section that says something about it. -/
theorem C117_pop_value {e : Env} {secs : List (Name × Section)} {d : Dict PVal} (hn : ∀ s ∈ secs, (s.2.map (·.1)).Nodup)
    (h : popKwargs e secs = .ok d) {k : Name} (hk : k ∉ jobNames) :
    d.get k = secs.reverse.findSome? fun s => says1 s.1 s.2 k := by
  unfold popKwargs at h
  split at h
  · have key : ∀ (secs : List (Name × Section)) (d0 : Dict PVal), (∀ s ∈ secs, (s.2.map (·.1)).Nodup) → popLoop e secs d0 = .ok d →
        d.get k = (secs.reverse.findSome? fun s => says1 s.1 s.2 k).or (d0.get k) := by
      intro secs
      induction secs with
      | nil =>
        intro d0 _ h
        cases h
        simp
      | cons s r ih =>
        intro d0 hn h
        obtain ⟨a, b⟩ := s
        unfold popLoop at h
        cases hs : popStep e d0 a b with
        | error x => rw [hs] at h; cases h
        | ok d1 =>
          rw [hs] at h
          rw [ih d1 (fun s hs => hn s (by simp [hs])) h, step_get (hn (a, b) (by simp)) hs hk]
          rw [List.reverse_cons, List.findSome?_append]
          cases (r.reverse.findSome? fun s => says1 s.1 s.2 k) <;> simp [List.findSome?]
          cases says1 a b k <;> rfl
    have := key secs [] hn h
    rw [this]
    simp [Dict.get]
  · cases h

/-- A population is only read from a file with all four sections, and only literals in them. -/
theorem C117_pop_needs {e : Env} {secs : List (Name × Section)} {d : Dict PVal} (h : popKwargs e secs = .ok d) :
    (∀ s ∈ [(chars! "BinaryPopulation_options"), (chars! "BinaryStar_output"), (chars! "SingleStar_1_output"), (chars! "SingleStar_2_output")],
      s ∈ secs.map (·.1) ∧ ∀ b, (s, b) ∈ secs → ∀ p ∈ b, p.2.isSome) := by
  unfold popKwargs at h
  split at h
  · rename_i hall
    intro s hs
    refine ⟨?_, ?_⟩
    · rw [List.all_eq_true] at hall
      have := hall s hs
      simpa using this
    · have key : ∀ (secs : List (Name × Section)) (d0 : Dict PVal), popLoop e secs d0 = .ok d → ∀ b, (s, b) ∈ secs → ∃ l, literals b = .ok l := by
        intro secs
        induction secs with
        | nil => intro _ _ b hb; cases hb
        | cons t r ih =>
          intro d0 h b hb
          obtain ⟨a, c⟩ := t
          unfold popLoop at h
          cases hst : popStep e d0 a c with
          | error x => rw [hst] at h; cases h
          | ok d1 =>
            rw [hst] at h
            rcases List.mem_cons.1 hb with hb | hb
            · cases hb
              cases hl : literals b with
              | ok l => exact ⟨l, rfl⟩
              | error x =>
                exfalso
                unfold popStep at hst
                rw [hl] at hst
                simp only [List.mem_cons, List.not_mem_nil, or_false] at hs
                rcases hs with rfl | rfl | rfl | rfl
                · rw [if_pos (by rfl)] at hst; cases hst
                · rw [if_neg (by decide), if_pos (by rfl)] at hst; cases hst
                · rw [if_neg (by decide), if_neg (by decide), if_pos (by rfl)] at hst; cases hst
                · rw [if_neg (by decide), if_neg (by decide), if_neg (by decide), if_pos (by rfl)] at hst; cases hst
            · exact ih d1 h b hb
      intro b hb
      exact (literals_iff b).1 (key secs [] h b hb)
  · cases h

/-- Without all sections the file is rejected. -/
theorem C117_pop_assert (e : Env) (secs : List (Name × Section)) {s : Name}
    (hs : s ∈ [(chars! "BinaryPopulation_options"), (chars! "BinaryStar_output"), (chars! "SingleStar_1_output"), (chars! "SingleStar_2_output")])
    (h : s ∉ secs.map (·.1)) : popKwargs e secs = .error .assertion := by
  unfold popKwargs
  rw [if_neg]
  intro hall
  rw [List.all_eq_true] at hall
  exact h (by simpa using hall s hs)

/-- Right after the section of the population its job is known: with MPI there is a communicator; without, rank and number of processes are
those of the job array, or undefined.  Whatever the file says about them. -/
theorem C117_pop_job {e : Env} {d d' : Dict PVal} {body : Section} {b : Bool}
    (hn : (body.map (·.1)).Nodup) (hm : body.lookup (chars! "use_MPI") = some (some (.bool b)))
    (h : popStep e d (chars! "BinaryPopulation_options") body = .ok d') :
    (b = true → e.job = none ∧ d'.get (chars! "comm") = some .comm) ∧
    (b = false → d'.get (chars! "comm") = some (.lit .none) ∧
      d'.get (chars! "RANK") = some (.lit (match e.job with | some (_, r, _) => .num r | none => .none)) ∧
      d'.get (chars! "size") = some (.lit (match e.job with | some (_, _, s) => .num s | none => .none)) ∧
      ∀ j r s, e.job = some (j, r, s) → d'.get (chars! "JOB_ID") = some (.lit (.num j))) := by
  unfold popStep at h
  rw [if_pos (by rfl)] at h
  cases hl : literals body with
  | error x => rw [hl] at h; cases h
  | ok l =>
    rw [hl] at h
    dsimp only at h
    have hnl : ((lits l).map (·.1)).Nodup := by
      have : (lits l).map (·.1) = l.map (·.1) := by simp [lits]
      rw [this, literals_keys hl]; exact hn
    have hv : (merge d (lits l)).get (chars! "use_MPI") = some (.lit (.bool b)) := by
      rw [get_merge _ _ hnl, get_lits, literals_get hl, hm]
      rfl
    rw [hv] at h
    dsimp only [PVal.isTrue, Lit.isTrue] at h
    cases hj : jobEntries e b with
    | error x => rw [hj] at h; cases h
    | ok j =>
      rw [hj] at h
      have h := Except.ok.inj h
      subst h
      obtain ⟨hj1, -⟩ := job_keys hj
      simp only [get_merge _ _ hj1]
      unfold jobEntries at hj
      cases b with
      | true =>
        cases hje : e.job with
        | some t => rw [hje] at hj; cases hj
        | none =>
          rw [hje] at hj
          cases hj
          exact ⟨fun _ => ⟨rfl, rfl⟩, by simp⟩
      | false =>
        cases hje : e.job with
        | some t =>
          obtain ⟨x, y, z⟩ := t
          rw [hje] at hj
          cases hj
          refine ⟨by simp, fun _ => ⟨rfl, rfl, rfl, ?_⟩⟩
          intro j r s hh
          cases hh
          rfl
        | none =>
          rw [hje] at hj
          cases hj
          exact ⟨by simp, fun _ => ⟨rfl, rfl, rfl, by simp⟩⟩

/-- MPI together with a job array is rejected. -/
theorem C117_pop_mpi_array {e : Env} {d : Dict PVal} {body : Section} {t : ℚ × ℚ × ℚ} (hn : (body.map (·.1)).Nodup)
    (hl : ∀ p ∈ body, p.2.isSome) (hm : body.lookup (chars! "use_MPI") = some (some (.bool true))) (hj : e.job = some t) :
    popStep e d (chars! "BinaryPopulation_options") body = .error .value := by
  obtain ⟨l, hl⟩ := (literals_iff body).2 hl
  unfold popStep
  rw [if_pos (by rfl), hl]
  dsimp only
  have hnl : ((lits l).map (·.1)).Nodup := by
    have : (lits l).map (·.1) = l.map (·.1) := by simp [lits]
    rw [this, literals_keys hl]; exact hn
  have hv : (merge d (lits l)).get (chars! "use_MPI") = some (.lit (.bool true)) := by
    rw [get_merge _ _ hnl, get_lits, literals_get hl, hm]
    rfl
  rw [hv]
  dsimp only [PVal.isTrue, Lit.isTrue]
  simp [jobEntries, hj]

/-- Sections other than the four have no effect. -/
theorem C117_pop_ignored (e : Env) (secs : List (Name × Section)) :
    popKwargs e secs = popKwargs e (secs.filter fun s => s.1 ∈ [(chars! "BinaryPopulation_options"), (chars! "BinaryStar_output"),
      (chars! "SingleStar_1_output"), (chars! "SingleStar_2_output")]) := by
  have hloop : ∀ (secs : List (Name × Section)) (d : Dict PVal), popLoop e secs d = popLoop e (secs.filter fun s => s.1 ∈ [popSec, binSec, s1Sec, s2Sec]) d := by
    intro secs
    induction secs with
    | nil => intro d; rfl
    | cons s r ih =>
      intro d
      obtain ⟨a, b⟩ := s
      by_cases h : a ∈ [popSec, binSec, s1Sec, s2Sec]
      · rw [List.filter_cons_of_pos (by simpa using h)]
        unfold popLoop
        cases popStep e d a b with
        | error x => rfl
        | ok d => exact ih d
      · rw [List.filter_cons_of_neg (by simpa using h)]
        rw [← ih d]
        simp only [List.mem_cons, List.not_mem_nil, or_false, not_or] at h
        simp [popLoop, popStep, h]
  have hc : ∀ s ∈ [popSec, binSec, s1Sec, s2Sec], (secs.map (·.1)).contains s =
      ((secs.filter fun t => t.1 ∈ [popSec, binSec, s1Sec, s2Sec]).map (·.1)).contains s := by
    intro s hs
    rw [Bool.eq_iff_iff]
    simp only [List.contains_iff_mem, List.mem_map, List.mem_filter, decide_eq_true_eq]
    constructor
    · rintro ⟨t, ht, rfl⟩
      exact ⟨t, ⟨ht, hs⟩, rfl⟩
    · rintro ⟨t, ⟨ht, -⟩, rfl⟩
      exact ⟨t, ht, rfl⟩
  unfold popKwargs
  rw [hloop secs []]
  have : ([popSec, binSec, s1Sec, s2Sec].all fun s => (secs.map (·.1)).contains s) =
      ([popSec, binSec, s1Sec, s2Sec].all fun s => ((secs.filter fun t => t.1 ∈ [popSec, binSec, s1Sec, s2Sec]).map (·.1)).contains s) := by
    rw [Bool.eq_iff_iff, List.all_eq_true, List.all_eq_true]
    exact ⟨fun h s hs => by rw [← hc s hs]; exact h s hs, fun h s hs => by rw [hc s hs]; exact h s hs⟩
  rw [this]
  rfl

def exPop : Name × Section := ((chars! "BinaryPopulation_options"), [((chars! "use_MPI"), some (.bool false)), ((chars! "x"), some (.num 1))])
def exBin : Name × Section := ((chars! "BinaryStar_output"), [((chars! "x"), some (.num 2))])
def exS1 : Name × Section := ((chars! "SingleStar_1_output"), [((chars! "include_S1"), some (.bool true)), ((chars! "only_select_columns"), some (.atom 1))])
def exS2 : Name × Section := ((chars! "SingleStar_2_output"), [((chars! "include_S2"), some (.bool false)), ((chars! "only_select_columns"), some (.atom 2))])

/-- The result, or nothing. -/
def found (r : Except Err (Dict PVal)) (k : Name) : Option PVal :=
  match r with
  | .ok d => d.get k
  | .error _ => none

/-- Violated: the options of a population depend on the order of the sections of the file. -/
theorem C117_order_violated : ∃ secs secs' : List (Name × Section), secs.Perm secs' ∧
    found (popKwargs ⟨none⟩ secs) (chars! "x") = some (.lit (.num 2)) ∧ found (popKwargs ⟨none⟩ secs') (chars! "x") = some (.lit (.num 1)) :=
  ⟨[exPop, exBin, exS1, exS2], [exBin, exPop, exS1, exS2], List.Perm.swap _ _ _, by decide +kernel, by decide +kernel⟩

/-- Violated: a rank in the section of the output of binaries replaces the rank of the job. -/
theorem C117_rank_violated : ∃ (e : Env) (secs : List (Name × Section)), e.job = some (7, 3, 10) ∧
    found (popKwargs e secs) (chars! "RANK") = some (.lit (.num 0)) :=
  ⟨⟨some (7, 3, 10)⟩, [exPop, ((chars! "BinaryStar_output"), [((chars! "RANK"), some (.num 0))]), exS1, exS2], rfl, by decide +kernel⟩

example : found (popKwargs ⟨some (7, 3, 10)⟩ [exPop, exBin, exS1, exS2]) (chars! "RANK") = some (.lit (.num 3)) ∧
    found (popKwargs ⟨none⟩ [exPop, exBin, exS1, exS2]) (chars! "S1_kwargs") = some (.dict [((chars! "only_select_columns"), .atom 1)]) ∧
    found (popKwargs ⟨none⟩ [exPop, exBin, exS1, exS2]) (chars! "S2_kwargs") = none := by
  decide +kernel

/-! ### Properties of a simulation -/

/-- The options without those about the location of the class, if the section has a class (specification). -/
def others (l : Dict Lit) : Dict Lit :=
  if (chars! "import") ∈ l.map (·.1) then l.filter fun p => p.1 ≠ (chars! "import") ∧ p.1 ≠ (chars! "absolute_import") else l

/-- The class of a section (specification): the absolute location goes before the other. -/
def classOf (l : Dict Lit) : Option SVal :=
  match l.get (chars! "import"), l.get (chars! "absolute_import") with
  | none, _ => none
  | some _, some (.pair a b) => some (.cls a b (others l))
  | some (.pair a b), some .none => some (.cls a b (others l))
  | some (.pair a b), none => some (.cls a b (others l))
  | _, _ => none

/-- What a section says about an entry (specification): a class under its own name, and the options of `grid_paths` under theirs. -/
def says2 (sec : Name) (l : Dict Lit) (k : Name) : Option SVal :=
  (if sec = (chars! "grid_paths") then (Dict.get (others l) k).map SVal.lit else none).or (if k = sec then classOf l else none)

theorem leftOver_eq (l : Dict Lit) : leftOver l = others l := by
  unfold leftOver others
  have : (Dict.get l (chars! "import")).isSome = true ↔ (chars! "import") ∈ l.map (·.1) := by
    unfold Dict.get
    induction l with
    | nil => simp
    | cons p r ih =>
      obtain ⟨a, b⟩ := p
      by_cases h : (chars! "import") = a
      · subst h; simp
      · rw [List.lookup, show ((chars! "import") == a) = false by simpa using h, List.map_cons, List.mem_cons]
        simp only [h, false_or]
        exact ih
  by_cases h : (chars! "import") ∈ l.map (·.1)
  · rw [if_pos (this.2 h), if_pos h]
  · rw [if_neg (fun h' => h (this.1 h')), if_neg h]

theorem sim_step_get {d d' : Dict SVal} {sec : Name} {body : Section} (hn : (body.map (·.1)).Nodup)
    (h : simStep d sec body = .ok d') : ∃ l, literals body = .ok l ∧ ∀ k, d'.get k = (says2 sec l k).or (d.get k) := by
  unfold simStep at h
  cases hl : literals body with
  | error x => rw [hl] at h; cases h
  | ok l =>
    refine ⟨l, rfl, fun k => ?_⟩
    rw [hl] at h
    dsimp only at h
    have hnl : (l.map (·.1)).Nodup := by rw [literals_keys hl]; exact hn
    cases hw : withClass d sec l with
    | error x => rw [hw] at h; cases h
    | ok d1 =>
      rw [hw] at h
      have h := Except.ok.inj h
      have hd1 : d1.get k = (if k = sec then classOf l else none).or (d.get k) := by
        unfold classOf
        rw [← leftOver_eq]
        unfold withClass at hw
        cases hi : l.get (chars! "import") with
        | none =>
          rw [hi] at hw
          cases hw
          simp
        | some i =>
          rw [hi] at hw
          dsimp only at hw
          cases ha : l.get (chars! "absolute_import") with
          | none =>
            rw [ha] at hw
            cases i <;> first
              | (dsimp only [Option.getD, imported] at hw; cases hw; rw [get_put]; by_cases hk : k = sec <;> simp [hk])
              | (dsimp only [Option.getD, imported] at hw; cases hw)
          | some a =>
            rw [ha] at hw
            cases a <;> cases i <;> first
              | (dsimp only [Option.getD, imported] at hw; cases hw; rw [get_put]; by_cases hk : k = sec <;> simp [hk])
              | (dsimp only [Option.getD, imported] at hw; cases hw)
      unfold says2
      rw [Option.or_assoc, ← hd1, ← h, ← leftOver_eq]
      by_cases hg : sec = (chars! "grid_paths")
      · rw [if_pos hg, if_pos hg, get_merge, get_simLits]
        have : (simLits (leftOver l)).map (·.1) = (leftOver l).map (·.1) := by simp [simLits]
        rw [this]
        exact leftOver_nodup hnl
      · rw [if_neg hg, if_neg hg, Option.none_or]

/-- Every entry of the result is given by the last section that says something about it. -/
theorem C117_sim_value {secs : List (Name × Section)} {d : Dict SVal} (hn : ∀ s ∈ secs, (s.2.map (·.1)).Nodup)
    (h : simKwargs none secs = .ok d) : ∃ ls : List (Name × Dict Lit), ls.map (·.1) = secs.map (·.1) ∧
      (secs.map fun s => literals s.2) = ls.map (fun l => .ok l.2) ∧ ∀ k, d.get k = ls.reverse.findSome? fun s => says2 s.1 s.2 k := by
  have key : ∀ (secs : List (Name × Section)) (d0 : Dict SVal), (∀ s ∈ secs, (s.2.map (·.1)).Nodup) → simLoop none secs d0 = .ok d →
      ∃ ls : List (Name × Dict Lit), ls.map (·.1) = secs.map (·.1) ∧ (secs.map fun s => literals s.2) = ls.map (fun l => .ok l.2) ∧
        ∀ k, d.get k = (ls.reverse.findSome? fun s => says2 s.1 s.2 k).or (d0.get k) := by
    intro secs
    induction secs with
    | nil =>
      intro d0 _ h
      cases h
      exact ⟨[], rfl, rfl, fun k => by simp⟩
    | cons s r ih =>
      intro d0 hn h
      obtain ⟨a, b⟩ := s
      unfold simLoop at h
      rw [if_neg (by simp)] at h
      cases hs : simStep d0 a b with
      | error x => rw [hs] at h; cases h
      | ok d1 =>
        rw [hs] at h
        obtain ⟨l, hl, hg⟩ := sim_step_get (hn (a, b) (by simp)) hs
        obtain ⟨ls, h1, h2, h3⟩ := ih d1 (fun s hs => hn s (by simp [hs])) h
        refine ⟨(a, l) :: ls, by simp [h1], by simp [h2, hl], fun k => ?_⟩
        rw [h3, hg, List.reverse_cons, List.findSome?_append]
        cases (ls.reverse.findSome? fun s => says2 s.1 s.2 k) <;> simp [List.findSome?]
        cases says2 a l k <;> rfl
  obtain ⟨ls, h1, h2, h3⟩ := key secs [] hn h
  exact ⟨ls, h1, h2, fun k => by rw [h3]; simp [Dict.get]⟩

/-- With `only` the result is that of the file with this section only. -/
theorem C117_sim_only (s : Name) (secs : List (Name × Section)) :
    simKwargs (some s) secs = simKwargs none (secs.filter fun t => t.1 = s) := by
  unfold simKwargs
  generalize ([] : Dict SVal) = d
  induction secs generalizing d with
  | nil => rfl
  | cons t r ih =>
    obtain ⟨a, b⟩ := t
    by_cases h : a = s
    · subst h
      rw [List.filter_cons_of_pos (by simp)]
      rw [simLoop, simLoop, if_neg (by simp), if_neg (by simp)]
      cases simStep d a b with
      | error x => rfl
      | ok d => exact ih d
    · rw [simLoop, if_pos (by simp; exact fun he => h he.symm), List.filter_cons_of_neg (by simpa using h)]
      exact ih d

/-- A value that is no literal, in any section, makes the reading of the whole file fail; reading only another section does not notice. -/
theorem C117_sim_error {secs : List (Name × Section)} {s : Name} {b : Section} {p : Name × Option Lit} (hs : (s, b) ∈ secs) (hp : p ∈ b)
    (h : p.2 = none) : ∃ x, simKwargs none secs = .error x := by
  unfold simKwargs
  generalize ([] : Dict SVal) = d
  induction secs generalizing d with
  | nil => cases hs
  | cons t r ih =>
    obtain ⟨a, c⟩ := t
    unfold simLoop
    rw [if_neg (by simp)]
    cases hst : simStep d a c with
    | error x => exact ⟨x, rfl⟩
    | ok d1 =>
      rcases List.mem_cons.1 hs with he | hr
      · cases he
        exfalso
        unfold simStep at hst
        cases hl : literals b with
        | error x => rw [hl] at hst; cases hst
        | ok l =>
          have := (literals_iff b).1 ⟨l, hl⟩ p hp
          rw [h] at this
          cases this
      · exact ih hr d1

def exStep : Name × Section := ((chars! "step_SN"), [((chars! "import"), some (.pair (chars! "posydon.sn") (chars! "StepSN"))), ((chars! "kick"), some (.num 265))])

def foundS (r : Except Err (Dict SVal)) (k : Name) : Option SVal :=
  match r with
  | .ok d => d.get k
  | .error _ => none

example : foundS (simKwargs none [exStep, ((chars! "flow"), [((chars! "import"), some (.pair ['f'] ['g'])),
      ((chars! "absolute_import"), some (.pair (chars! "my.py") (chars! "mine")))]), ((chars! "notes"), [((chars! "a"), some (.num 1))])])
      (chars! "step_SN") = some (.cls (chars! "posydon.sn") (chars! "StepSN") [((chars! "kick"), .num 265)]) ∧
    foundS (simKwargs none [exStep, ((chars! "flow"), [((chars! "import"), some (.pair ['f'] ['g'])),
      ((chars! "absolute_import"), some (.pair (chars! "my.py") (chars! "mine")))]), ((chars! "notes"), [((chars! "a"), some (.num 1))])])
      (chars! "flow") = some (.cls (chars! "my.py") (chars! "mine") []) ∧
    foundS (simKwargs none [exStep, ((chars! "notes"), [((chars! "a"), some (.num 1))])]) (chars! "notes") = none := by
  decide +kernel

/-- Violated: an option of `grid_paths` with the name of a step replaces the step. -/
theorem C117_grid_paths_violated : ∃ secs : List (Name × Section), exStep ∈ secs ∧
    foundS (simKwargs none secs) (chars! "step_SN") = some (.lit (.atom 0)) :=
  ⟨[exStep, ((chars! "grid_paths"), [((chars! "step_SN"), some (.atom 0))])], by simp, by decide +kernel⟩

/-! ### Files -/

/-- One file or several files are read if all of them are there; anything else is an error. -/
theorem C117_read (exist : List Name) : (∀ s, readPaths exist (.one s) = .ok [s] ↔ s ∈ exist) ∧
    (∀ l : List Name, readPaths exist (.many l) = .ok l ↔ l ≠ [] ∧ ∀ s ∈ l, s ∈ exist) ∧
    (∀ l : List Name, (∃ s ∈ l, s ∉ exist) → readPaths exist (.many l) = .error .notFound) ∧ readPaths exist .other = .error .value := by
  refine ⟨?_, ?_, ?_, rfl⟩
  · intro s
    by_cases h : s ∈ exist <;> simp [readPaths, h]
  · intro l
    by_cases h : (l.all fun s => exist.contains s) = true
    · cases l with
      | nil => simp [readPaths]
      | cons a r =>
        have h' := h
        simp only [List.all_eq_true, List.contains_iff_mem] at h'
        rw [readPaths, if_pos h]
        simpa using h'
    · rw [readPaths, if_neg h]
      simp only [List.all_eq_true, List.contains_iff_mem] at h
      simp [h]
  · rintro l ⟨s, hs, hn⟩
    rw [readPaths, if_neg]
    intro h
    simp only [List.all_eq_true, List.contains_iff_mem] at h
    exact hn (h s hs)

example : eval (.bin .add (.num 1) (.bin .div (.num 3) (.num 2))) = .ok (.num (5 / 2)) ∧
    Means (.bin .mod (.num (-7)) (.num 3)) 2 := by
  refine ⟨?_, ?_⟩
  · have h : Means (.bin .add (.num 1) (.bin .div (.num 3) (.num 2))) (1 + 3 / 2) := .add (.num _) (.div (.num _) (.num _) (by norm_num))
    rw [C117_arith h]
    norm_num
  · exact .mod (-3) 2 (.num _) (.num _) (by norm_num) (by norm_num) (by norm_num) (by norm_num)

example : Blocked (.list [.str ['a'], .bin .mul (.neg (.num 1)) (.num 2)]) :=
  .elem (a := .bin .mul (.neg (.num 1)) (.num 2)) (by simp) (.left _ (.neg _))

/-- C117.  A section in which some value is not a literal is refused as a whole with an error of the value, wherever the value stands. -/
theorem C117_literals (s : Section) : (∃ p ∈ s, p.2 = none) ↔ literals s = .error .value := by
  induction s with
  | nil => simp [literals]
  | cons p s ih =>
    obtain ⟨k, v⟩ := p
    unfold literals
    cases v with
    | none => simp
    | some v =>
      cases hr : literals s with
      | ok d => rw [hr] at ih; simpa using ih
      | error e => rw [hr] at ih; simpa using ih

end Verif.IniValues
