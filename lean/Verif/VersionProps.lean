import Verif.Version
import Mathlib.Tactic.Common
import Mathlib.Data.List.Basic

/-!
C169: the version of the active-learning package.
-/
namespace Verif.Version

open Verif.Jobs (Text dec starts strip digitsVal cutAt)

/-! ### The specification: what git writes -/

/-- The text of `git describe --tags --long --dirty`: tag, number of commits since, short name, mark. -/
def described (tag : Text) (n : ℕ) (h : Text) (dirty : Bool) : Text :=
  tag ++ ('-' :: (dec n ++ ('-' :: 'g' :: (h ++ if dirty then ['-', 'd', 'i', 'r', 't', 'y'] else []))))

/-- A name of a commit: hexadecimal digits, at least one. -/
def Name (h : Text) : Prop := h ≠ [] ∧ ∀ c ∈ h, isHex c = true

/-! ### Helpers -/

theorem takeWhile_stop {A : Type} {b : A → Bool} {x : A} {r : List A} :
    ∀ {l : List A}, (∀ c ∈ l, b c = true) → b x = false →
      (l ++ x :: r).takeWhile b = l ∧ (l ++ x :: r).dropWhile b = x :: r
  | [], _, hx => by simp [hx]
  | y :: l, h, hx => by
    have hy := h y (List.mem_cons_self ..)
    have ih := takeWhile_stop (r := r) (fun c hc => h c (List.mem_cons_of_mem _ hc)) hx
    simp [hy, ih.1, ih.2]

theorem mem_takeWhile {A : Type} {b : A → Bool} : ∀ {l : List A}, ∀ c ∈ l.takeWhile b, b c = true
  | [], c, h => by simp at h
  | y :: l, c, h => by
    by_cases hy : b y = true
    · rw [List.takeWhile_cons_of_pos hy] at h
      rcases List.mem_cons.1 h with rfl | h
      · exact hy
      · exact mem_takeWhile c h
    · rw [List.takeWhile_cons_of_neg hy] at h; simp at h

/-- The groups are the one way to cut the text at the two separators. -/
theorem groups_iff (s t d h : Text) :
    groups s = some (t, d, h) ↔
      s = t ++ ('-' :: (d ++ ('-' :: 'g' :: h))) ∧ t ≠ [] ∧ d ≠ [] ∧ (∀ c ∈ d, c.isDigit = true) ∧ Name h := by
  constructor
  · intro hg
    unfold groups at hg
    dsimp only at hg
    have e₁ := List.takeWhile_append_dropWhile (p := isHex) (l := s.reverse)
    have m₁ := mem_takeWhile (b := isHex) (l := s.reverse)
    generalize s.reverse.takeWhile isHex = h' at *
    generalize s.reverse.dropWhile isHex = r at *
    split at hg
    · rename_i r₁
      have e₂ := List.takeWhile_append_dropWhile (p := Char.isDigit) (l := r₁)
      have m₂ := mem_takeWhile (b := Char.isDigit) (l := r₁)
      generalize r₁.takeWhile Char.isDigit = d' at *
      generalize r₁.dropWhile Char.isDigit = r₂ at *
      split at hg
      · rename_i t'
        split at hg
        · rename_i hn
          simp only [Option.some.injEq, Prod.mk.injEq] at hg
          obtain ⟨rfl, rfl, rfl⟩ := hg
          refine ⟨?_, by simpa using hn.2.2, by simpa using hn.2.1, fun c hc => m₂ c (by simpa using hc),
            by simpa using hn.1, fun c hc => m₁ c (by simpa using hc)⟩
          rw [← List.reverse_reverse s, ← e₁, ← e₂]
          simp
        · cases hg
      · cases hg
    · cases hg
  · rintro ⟨rfl, ht, hd, hdd, hh, hhh⟩
    have er : (t ++ ('-' :: (d ++ ('-' :: 'g' :: h)))).reverse =
        h.reverse ++ 'g' :: ('-' :: (d.reverse ++ ('-' :: t.reverse))) := by simp
    have a := takeWhile_stop (b := isHex) (x := 'g') (r := '-' :: (d.reverse ++ ('-' :: t.reverse)))
      (l := h.reverse) (fun c hc => hhh c (by simpa using hc)) (by decide)
    have b := takeWhile_stop (b := Char.isDigit) (x := '-') (r := t.reverse)
      (l := d.reverse) (fun c hc => hdd c (by simpa using hc)) (by decide)
    unfold groups
    dsimp only
    rw [er, a.1, a.2]
    simp only [b.1, b.2]
    rw [if_pos ⟨by simpa using hh, by simpa using hd, by simpa using ht⟩]
    simp

theorem clean_dirty (s : Text) : clean (s ++ dirtyMark) = (true, s) := by
  unfold clean
  rw [if_pos (by unfold ends; rw [List.isSuffixOf_iff_suffix]; exact List.suffix_append _ _)]
  simp [dirtyMark]

theorem clean_name {s h : Text} (hh : Name h) : clean (s ++ h) = (false, s ++ h) := by
  unfold clean
  rw [if_neg]
  unfold ends
  rw [List.isSuffixOf_iff_suffix]
  rintro ⟨u, hu⟩
  obtain ⟨a, c, rfl⟩ : ∃ a c, h = a ++ [c] := ⟨h.dropLast, h.getLast hh.1, (List.dropLast_append_getLast hh.1).symm⟩
  have hl := congrArg List.getLast? hu
  have hc := hh.2 c (by simp)
  rw [← List.append_assoc, List.getLast?_concat] at hl
  have : (u ++ dirtyMark).getLast? = some 'y' := by
    show (u ++ ((chars! "-dirt") ++ ['y'])).getLast? = some 'y'
    rw [← List.append_assoc, List.getLast?_concat]
  rw [this] at hl
  simp only [Option.some.injEq] at hl
  rw [← hl] at hc
  exact absurd hc (by decide)

theorem clean_described (u : Text) (n : ℕ) (h : Text) (dirty : Bool) (hh : Name h) :
    clean (described u n h dirty) = (dirty, u ++ ('-' :: (dec n ++ ('-' :: 'g' :: h)))) := by
  cases dirty with
  | true =>
    have := clean_dirty (u ++ ('-' :: (dec n ++ ('-' :: 'g' :: h))))
    rw [← this]
    congr 1
    simp [described, dirtyMark]
  | false =>
    have := clean_name (s := u ++ ('-' :: (dec n ++ ['-', 'g']))) hh
    have e : u ++ ('-' :: (dec n ++ ['-', 'g'])) ++ h = u ++ ('-' :: (dec n ++ ('-' :: 'g' :: h))) := by simp
    rw [e] at this
    rw [← this]
    congr 1
    simp [described]

/-- The rest of the sequence after the pieces are there. -/
theorem bind_ok (p : Pieces) (f : Pieces → Except Err Answer) : (Except.ok p : Except Err Pieces).bind f = f p := rfl

theorem starts_append (p s : Text) : starts p (p ++ s) = true := by
  unfold Jobs.starts; rw [List.isPrefixOf_iff_prefix]; exact List.prefix_append _ _

theorem starts_iff {p s : Text} : starts p s = true ↔ ∃ r, s = p ++ r := by
  unfold Jobs.starts; rw [List.isPrefixOf_iff_prefix]
  exact ⟨fun ⟨r, h⟩ => ⟨r, h.symm⟩, fun ⟨r, h⟩ => ⟨r, h.symm⟩⟩

theorem dec_injective {a b : ℕ} (h : dec a = dec b) : a = b := by
  have := Jobs.digitsVal_dec a
  rw [h, Jobs.digitsVal_dec] at this
  exact (Option.some.inj this).symm

theorem ofDigit_dec (n : ℕ) : Nat.ofDigitChars 10 (dec n) 0 = n := Nat.ofDigitChars_ten_toDigits

/-- Two texts with the same digits and then a separator. -/
theorem cut_unique {A : Type} {b : A → Bool} {x : A} {l₁ l₂ r₁ r₂ : List A} (h₁ : ∀ c ∈ l₁, b c = true)
    (h₂ : ∀ c ∈ l₂, b c = true) (hx : b x = false) (h : l₁ ++ x :: r₁ = l₂ ++ x :: r₂) : l₁ = l₂ ∧ r₁ = r₂ := by
  have a := takeWhile_stop (r := r₁) h₁ hx
  have c := takeWhile_stop (r := r₂) h₂ hx
  rw [h] at a
  have e := a.2.symm.trans c.2
  exact ⟨a.1.symm.trans c.1, by injection e⟩

/-! ### The pieces -/

/-- The description of git is taken apart exactly, whatever the tag is, even one with hyphens and digits. -/
theorem C169_pieces (pre t h full date : Text) (n : ℕ) (dirty : Bool) (g : Git) (ht : pre ++ t ≠ []) (hh : Name h)
    (hi : g.inside = true) (hg : g.describe.map strip = some (described (pre ++ t) n h dirty))
    (hf : g.head = some full) (hd : g.date = some date) :
    pieces pre g = .ok ⟨strip full, h, none, dirty, some t, n, some (iso date)⟩ := by
  unfold pieces
  rw [if_pos hi]
  cases hq : g.describe with
  | none => rw [hq] at hg; cases hg
  | some out =>
    rw [hq] at hg
    simp only [Option.map_some, Option.some.injEq] at hg
    rw [hf]
    dsimp only
    rw [hg]
    have hc := clean_described (pre ++ t) n h dirty hh
    rw [hc]
    dsimp only
    unfold parse
    rw [if_pos (by simp), (groups_iff _ (pre ++ t) (dec n) h).2
      ⟨rfl, ht, Jobs.dec_ne n, fun c hc => Jobs.digit_of_mem hc, hh⟩]
    dsimp only
    rw [if_pos (starts_append pre t)]
    unfold withDate
    rw [hd]
    simp [ofDigit_dec]

/-- A checkout without any tag: git writes the short name alone, and the commits are counted. -/
theorem C169_untagged (pre h full date count : Text) (n : ℕ) (dirty : Bool) (g : Git) (hh : Name h)
    (hi : g.inside = true) (hg : g.describe.map strip = some (h ++ if dirty then (chars! "-dirty") else []))
    (hf : g.head = some full) (hd : g.date = some date) (hc : g.count = some count) (hn : strip count = dec n) :
    pieces pre g = .ok ⟨strip full, (strip full).take 7, none, dirty, none, n, some (iso date)⟩ := by
  unfold pieces
  rw [if_pos hi]
  cases hq : g.describe with
  | none => rw [hq] at hg; cases hg
  | some out =>
    rw [hq] at hg
    simp only [Option.map_some, Option.some.injEq] at hg
    rw [hf]
    dsimp only
    rw [hg]
    have hcl : clean (h ++ if dirty then (chars! "-dirty") else []) = (dirty, h) := by
      cases dirty with
      | true => exact clean_dirty h
      | false => simpa using clean_name (s := []) hh
    rw [hcl]
    dsimp only
    unfold parse
    rw [if_neg (fun hm => by have := hh.2 _ hm; exact absurd this (by decide)), hc]
    dsimp only
    rw [hn, Jobs.digitsVal_dec]
    dsimp only
    unfold withDate
    rw [hd]

/-- Any other text of git is reported as an error, with the version `unknown`; nothing is guessed. -/
theorem C169_unparsed (pre out full style : Text) (g : Git) (hi : g.inside = true) (hg : g.describe = some out)
    (hf : g.head = some full) (hm : '-' ∈ (clean (strip out)).2)
    (hno : ∀ t n h, (clean (strip out)).2 ≠ pre ++ t ++ ('-' :: (n ++ ('-' :: 'g' :: h))) ∨
      ¬ (pre ++ t ≠ [] ∧ n ≠ [] ∧ (∀ c ∈ n, c.isDigit = true) ∧ Name h)) :
    ∃ e, (pieces pre g).bind (render · style) = .ok ⟨(chars! "unknown"), some (strip full), none, some e, none⟩ := by
  unfold pieces
  rw [if_pos hi, hg, hf]
  dsimp only
  unfold parse
  rw [if_pos hm]
  cases hgr : groups (clean (strip out)).2 with
  | none => exact ⟨_, rfl⟩
  | some q =>
    obtain ⟨t, d, h⟩ := q
    dsimp only
    have hq := (groups_iff _ _ _ _).1 hgr
    by_cases hs : starts pre t = true
    · obtain ⟨r, rfl⟩ := starts_iff.1 hs
      rcases hno r d h with h' | h'
      · exact absurd hq.1 h'
      · exact absurd hq.2 h'
    · rw [if_neg hs]
      exact ⟨_, rfl⟩

/-! ### The version -/

/-- In the style `git-describe-long` the version is again what git wrote, without the prefix of the tag. -/
theorem C169_long (pre t h full date : Text) (n : ℕ) (dirty : Bool) (g : Git) (ht : t ≠ []) (hh : Name h)
    (hi : g.inside = true) (hg : g.describe.map strip = some (described (pre ++ t) n h dirty))
    (hf : g.head = some full) (hd : g.date = some date) :
    (pieces pre g).bind (render · (chars! "git-describe-long")) =
      .ok ⟨described t n h dirty, some (strip full), some dirty, none, some (iso date)⟩ := by
  rw [C169_pieces pre t h full date n dirty g (by simp [ht]) hh hi hg hf hd]
  rw [bind_ok]
  unfold render
  dsimp only
  have hr : renderer (chars! "git-describe-long") = some gitDescribeLong := rfl
  rw [hr]
  dsimp only
  congr 2
  have ht' : tagOf ⟨strip full, h, none, dirty, some t, n, some (iso date)⟩ = some t := by simp [tagOf, Option.filter, ht]
  unfold gitDescribeLong
  rw [ht']
  simp [described, mark, dirtyMark]

/-- A release: the default style writes the tag and nothing else exactly for an unchanged checkout of a tag. -/
theorem C169_release (p : Pieces) (t : Text) (ht : tagOf p = some t) : pep440 p = t ↔ p.distance = 0 ∧ p.dirty = false := by
  unfold pep440
  rw [ht]
  dsimp only
  by_cases h : p.distance ≠ 0 ∨ p.dirty = true
  · rw [if_pos h]
    constructor
    · intro e
      have := congrArg List.length e
      unfold plusOrDot at this
      split at this <;> simp at this
    · rintro ⟨h₀, h₁⟩
      rcases h with h | h
      · exact absurd h₀ h
      · rw [h₁] at h; cases h
  · rw [if_neg h]
    simp only [not_or, ne_eq, not_not, Bool.not_eq_true] at h
    exact ⟨fun _ => h, fun _ => rfl⟩

/-- What follows the separator determines distance, name and mark. -/
theorem tail_injective {n m : ℕ} {h k : Text} {d e : Bool} (hh : Name h) (hk : Name k)
    (heq : dec n ++ ((chars! ".g") ++ (h ++ mark d (chars! ".dirty"))) = dec m ++ ((chars! ".g") ++ (k ++ mark e (chars! ".dirty")))) :
    n = m ∧ h = k ∧ d = e := by
  have c := cut_unique (b := Char.isDigit) (x := '.') (fun c hc => Jobs.digit_of_mem hc) (fun c hc => Jobs.digit_of_mem hc)
    (by decide) heq
  have c₂ : h ++ mark d (chars! ".dirty") = k ++ mark e (chars! ".dirty") := by have := c.2; simpa using this
  refine ⟨dec_injective c.1, ?_⟩
  cases d <;> cases e
  · exact ⟨by simpa [mark] using c₂, rfl⟩
  · exfalso
    have : '.' ∈ h := by
      have e : h = k ++ (chars! ".dirty") := by simpa [mark] using c₂
      rw [e]; simp
    exact absurd (hh.2 _ this) (by decide)
  · exfalso
    have : '.' ∈ k := by
      have e : h ++ (chars! ".dirty") = k := by simpa [mark] using c₂
      rw [← e]; simp
    exact absurd (hk.2 _ this) (by decide)
  · exact ⟨(cut_unique (b := isHex) (x := '.') hh.2 hk.2 (by decide) c₂).1, rfl⟩

/-- The state of the checkout that a version should tell. -/
def Same (p q : Pieces) : Prop :=
  tagOf p = tagOf q ∧ p.distance = q.distance ∧ p.dirty = q.dirty ∧
    (tagOf p = none ∨ p.distance ≠ 0 ∨ p.dirty = true → p.short = q.short)

/-- Two checkouts with tags free of `+` have the same default version only if they agree in tag, distance and mark,
and, unless they are releases, in the name of the commit. -/
theorem C169_injective_partial (p q : Pieces) (hp : Name p.short) (hq : Name q.short)
    (tp : ∀ t, tagOf p = some t → '+' ∉ t) (tq : ∀ t, tagOf q = some t → '+' ∉ t) :
    pep440 p = pep440 q ↔ Same p q := by
  have nodigit : ∀ n : ℕ, ∀ r : Text, ∀ c : Char, c.isDigit = false → ∀ u, dec n ++ r ≠ c :: u := by
    intro n r c hc u e
    cases hd : dec n with
    | nil => exact Jobs.dec_ne n hd
    | cons x l =>
      rw [hd] at e
      injection e with e _
      have := Jobs.digit_of_mem (n := n) (c := x) (by rw [hd]; simp)
      rw [e, hc] at this; cases this
  have plus : ∀ {a b r s : Text}, '+' ∉ a → '+' ∉ b → a ++ '+' :: r = b ++ '+' :: s → a = b ∧ r = s := by
    intro a b r s ha hb e
    exact cut_unique (b := fun c => decide (c ≠ '+')) (x := '+') (fun c hc => by simpa using fun e : c = '+' => ha (e ▸ hc))
      (fun c hc => by simpa using fun e : c = '+' => hb (e ▸ hc)) (by decide) e
  constructor
  · intro h
    unfold pep440 at h
    cases hp' : tagOf p with
    | some t =>
      cases hq' : tagOf q with
      | some u =>
        rw [hp', hq'] at h
        dsimp only at h
        have ht := tp t hp'
        have hu := tq u hq'
        have pt : plusOrDot t = ['+'] := if_neg ht
        have pu : plusOrDot u = ['+'] := if_neg hu
        rw [pt, pu] at h
        by_cases hx : p.distance ≠ 0 ∨ p.dirty = true
        · by_cases hy : q.distance ≠ 0 ∨ q.dirty = true
          · rw [if_pos hx, if_pos hy] at h
            have a := plus ht hu h
            have b := tail_injective hp hq a.2
            exact ⟨by rw [hp', hq', a.1], b.1, b.2.2, fun _ => b.2.1⟩
          · rw [if_pos hx, if_neg hy] at h
            exact absurd (by rw [← h]; simp) hu
        · by_cases hy : q.distance ≠ 0 ∨ q.dirty = true
          · rw [if_neg hx, if_pos hy] at h
            exact absurd (by rw [h]; simp) ht
          · rw [if_neg hx, if_neg hy] at h
            simp only [not_or, ne_eq, not_not, Bool.not_eq_true] at hx hy
            refine ⟨by rw [hp', hq', h], by rw [hx.1, hy.1], by rw [hx.2, hy.2], ?_⟩
            rintro (h' | h' | h')
            · rw [hp'] at h'; cases h'
            · exact absurd hx.1 h'
            · rw [hx.2] at h'; cases h'
      | none =>
        exfalso
        rw [hp', hq'] at h
        dsimp only at h
        have ht := tp t hp'
        have pt : plusOrDot t = ['+'] := if_neg ht
        rw [pt] at h
        by_cases hx : p.distance ≠ 0 ∨ p.dirty = true
        · rw [if_pos hx] at h
          have a := plus (b := ['0']) ht (by decide) h
          exact nodigit _ _ 'u' (by decide) _ a.2
        · rw [if_neg hx] at h
          exact ht (by rw [h]; simp)
    | none =>
      cases hq' : tagOf q with
      | some u =>
        exfalso
        rw [hp', hq'] at h
        dsimp only at h
        have hu := tq u hq'
        have pu : plusOrDot u = ['+'] := if_neg hu
        rw [pu] at h
        by_cases hx : q.distance ≠ 0 ∨ q.dirty = true
        · rw [if_pos hx] at h
          have a := plus (a := ['0']) (by decide) hu h
          exact nodigit _ _ 'u' (by decide) _ a.2.symm
        · rw [if_neg hx] at h
          exact hu (by rw [← h]; simp)
      | none =>
        rw [hp', hq'] at h
        dsimp only at h
        have b := tail_injective hp hq (List.append_cancel_left h)
        exact ⟨by rw [hp', hq'], b.1, b.2.2, fun _ => b.2.1⟩
  · rintro ⟨h₁, h₂, h₃, h₄⟩
    unfold pep440
    rw [← h₁, ← h₂, ← h₃]
    cases hp' : tagOf p with
    | none => rw [h₄ (.inl hp')]
    | some t =>
      dsimp only
      by_cases hx : p.distance ≠ 0 ∨ p.dirty = true
      · rw [if_pos hx, if_pos hx, h₄ (.inr hx)]
      · rw [if_neg hx, if_neg hx]

/-- With a `+` in a tag two different checkouts may have the same version: a later commit of one tag, and a release
with the longer tag. -/
theorem C169_plus_violated : ∃ p q : Pieces, Name p.short ∧ Name q.short ∧ p.distance ≠ q.distance ∧ tagOf p ≠ tagOf q ∧
    pep440 p = pep440 q := by
  refine ⟨⟨[], (chars! "abc"), none, false, some (chars! "1.0"), 3, none⟩,
    ⟨[], (chars! "def"), none, false, some (chars! "1.0+3.gabc"), 0, none⟩, ?_, ?_, ?_, ?_, ?_⟩
  · exact ⟨by decide, by decide⟩
  · exact ⟨by decide, by decide⟩
  · decide
  · decide
  · decide +kernel

/-- The local part of the version is begun once: there is at most one `+` if the tag has at most one. -/
theorem C169_one_plus (p : Pieces) (hp : Name p.short) (ht : ∀ t, tagOf p = some t → t.count '+' ≤ 1) :
    (pep440 p).count '+' ≤ 1 ∧ (pep440Post p).count '+' ≤ 1 := by
  have hs : p.short.count '+' = 0 := by
    rw [List.count_eq_zero]; intro h; exact absurd (hp.2 _ h) (by decide)
  have hd : (dec p.distance).count '+' = 0 := by
    rw [List.count_eq_zero]; intro h; exact absurd (Jobs.digit_of_mem h) (by decide)
  have hm : ∀ s : Text, s.count '+' = 0 → (mark p.dirty s).count '+' = 0 := by
    intro s h; unfold mark; split <;> simp [h]
  have m₁ := hm (chars! ".dirty") (by decide)
  have m₂ := hm (chars! ".dev0") (by decide)
  unfold pep440 pep440Post
  cases hp' : tagOf p with
  | none =>
    dsimp only
    simp only [List.count_append, hs, hd, m₁, m₂]
    exact ⟨by decide, by decide⟩
  | some t =>
    have h₁ := ht t hp'
    have hpd : t.count '+' + (plusOrDot t).count '+' ≤ 1 := by
      unfold plusOrDot
      split
      · simpa using h₁
      · rename_i h
        rw [List.count_eq_zero.2 h]; decide
    have c₁ : List.count '+' (chars! ".g") = 0 := by decide
    have c₂ : List.count '+' (chars! ".post") = 0 := by decide
    have c₃ : List.count '+' ('g' :: p.short) = 0 := by rw [List.count_cons, hs]; decide
    dsimp only
    split
    · simp only [List.count_append, hs, hd, m₁, m₂, c₁, c₂, c₃]
      omega
    · exact ⟨h₁, h₁⟩

/-- Three styles leave out what the others tell: `pep440-pre` never depends on the mark or on the name of the commit. -/
theorem C169_pre_violated (p : Pieces) (dirty : Bool) (short : Text) :
    pep440Pre { p with dirty := dirty, short := short } = pep440Pre p := rfl

/-- `pep440-old` never depends on the name of the commit: two commits at the same distance from a tag, on two
branches, have the same version. -/
theorem C169_old_violated (p : Pieces) (short : Text) : pep440Old { p with short := short } = pep440Old p := rfl

/-- `git-describe` drops the name of the commit for a release only. -/
theorem C169_describe_style (p : Pieces) : p.distance ≠ 0 → gitDescribe p = gitDescribeLong p := by
  intro h
  unfold gitDescribe gitDescribeLong
  cases tagOf p with
  | none => rfl
  | some t => dsimp only; rw [if_pos h]

/-- A tag that is the prefix and nothing more counts as no tag: the tagged commit is called untagged. -/
theorem C169_bare_violated (pre h full date : Text) (dirty : Bool) (n : ℕ) (g : Git) (hpre : pre ≠ []) (hh : Name h)
    (hi : g.inside = true) (hg : g.describe.map strip = some (described pre n h dirty))
    (hf : g.head = some full) (hd : g.date = some date) :
    (pieces pre g).map pep440 = .ok ((chars! "0+untagged.") ++ (dec n ++ ((chars! ".g") ++ (h ++ mark dirty (chars! ".dirty"))))) := by
  rw [C169_pieces pre [] h full date n dirty g (by simpa using hpre) hh hi (by simpa using hg) hf hd]
  rfl

/-! ### The sources in turn -/

/-- A checkout: the keywords are not filled in, so git is asked. -/
theorem C169_checkout (c : Config) (g : Git) (dirs : List Text) : versions c keywords g dirs = fromGit c g dirs := by
  have : fromKeywords keywords c.tagPrefix = .error .notThisMethod := by
    unfold fromKeywords
    rw [if_neg (by rintro ⟨h, _⟩; cases h)]
    rfl
  unfold versions
  rw [this]

/-- The errors of the pieces. -/
theorem pieces_cases (pre : Text) (g : Git) :
    (∃ p, pieces pre g = .ok p) ∨
    (pieces pre g = .error .notThisMethod ∧ (g.inside = false ∨ g.describe = none ∨ g.head = none)) ∨
    (g.inside = true ∧ (∃ out full, g.describe = some out ∧ g.head = some full ∧
      ((pieces pre g = .error .attributeError ∧ g.date = none) ∨
       (pieces pre g = .error .typeError ∧ g.count = none ∧ '-' ∉ (clean (strip out)).2) ∨
       (pieces pre g = .error .valueError ∧ '-' ∉ (clean (strip out)).2 ∧ ∃ s, g.count = some s ∧ digitsVal (strip s) = none)))) := by
  unfold pieces
  cases hi : g.inside with
  | false => exact .inr (.inl ⟨rfl, .inl rfl⟩)
  | true =>
    rw [if_pos rfl]
    cases hde : g.describe with
    | none => exact .inr (.inl ⟨rfl, .inr (.inl rfl)⟩)
    | some out =>
      cases hhe : g.head with
      | none => exact .inr (.inl ⟨rfl, .inr (.inr rfl)⟩)
      | some full =>
        dsimp only
        unfold parse
        by_cases hm : '-' ∈ (clean (strip out)).2
        · rw [if_pos hm]
          cases groups (clean (strip out)).2 with
          | none => exact .inl ⟨_, rfl⟩
          | some q =>
            obtain ⟨t, d, h⟩ := q
            dsimp only
            by_cases hs : starts pre t = true
            · rw [if_pos hs]
              unfold withDate
              cases hda : g.date with
              | none => exact .inr (.inr ⟨rfl, out, full, rfl, rfl, .inl ⟨rfl, rfl⟩⟩)
              | some d => exact .inl ⟨_, rfl⟩
            · rw [if_neg hs]; exact .inl ⟨_, rfl⟩
        · rw [if_neg hm]
          cases hco : g.count with
          | none => exact .inr (.inr ⟨rfl, out, full, rfl, rfl, .inr (.inl ⟨rfl, rfl, hm⟩)⟩)
          | some s =>
            dsimp only
            cases hv : digitsVal (strip s) with
            | none => exact .inr (.inr ⟨rfl, out, full, rfl, rfl, .inr (.inr ⟨rfl, hm, s, rfl, hv⟩)⟩)
            | some n =>
              dsimp only
              unfold withDate
              cases hda : g.date with
              | none => exact .inr (.inr ⟨rfl, out, full, rfl, rfl, .inl ⟨rfl, rfl⟩⟩)
              | some d => exact .inl ⟨_, rfl⟩

/-- The package always has a version as long as the last two commands of git work when the first three did. -/
theorem C169_total_partial (g : Git) (dirs : List Text) (hd : g.date.isSome) (hc : ∃ s, g.count = some s ∧ (digitsVal (strip s)).isSome) :
    ∃ a, versions config keywords g dirs = .ok a := by
  rw [C169_checkout]
  unfold fromGit
  obtain ⟨s, hs, hv⟩ := hc
  rcases pieces_cases config.tagPrefix g with ⟨p, hp⟩ | ⟨hp, _⟩ | ⟨_, out, full, _, _, ⟨_, h⟩ | ⟨_, h, _⟩ | ⟨_, _, s', h, hv'⟩⟩
  · rw [hp]
    rw [bind_ok]
    unfold render
    cases p.error with
    | some e => exact ⟨_, rfl⟩
    | none => exact ⟨_, rfl⟩
  · rw [hp]
    exact ⟨unable, rfl⟩
  · rw [h] at hd; cases hd
  · rw [hs] at h; cases h
  · rw [hs] at h
    cases h
    rw [hv'] at hv; cases hv

/-- Without git, or outside a checkout, the answer is the unknown version with its reason. -/
theorem C169_no_git (g : Git) (dirs : List Text) (h : g.inside = false ∨ g.describe = none ∨ g.head = none) :
    versions config keywords g dirs = .ok ⟨(chars! "0+unknown"), none, none, some (chars! "unable to compute version"), none⟩ := by
  rw [C169_checkout]
  have : pieces config.tagPrefix g = .error .notThisMethod := by
    unfold pieces
    cases hi : g.inside with
    | false => rfl
    | true =>
      rw [if_pos rfl]
      rcases h with h | h | h
      · rw [hi] at h; cases h
      · rw [h]
      · cases g.describe with
        | none => rfl
        | some o => rw [h]
  unfold fromGit
  rw [this]
  rfl

/-- A failure of the last command is not passed on to the next source: importing the package fails, whatever the
tag is, although the version was already known. -/
theorem C169_date_violated (c : Config) (t h full : Text) (n : ℕ) (dirty : Bool) (g : Git) (dirs : List Text)
    (ht : c.tagPrefix ++ t ≠ []) (hh : Name h) (hi : g.inside = true)
    (hg : g.describe.map strip = some (described (c.tagPrefix ++ t) n h dirty)) (hf : g.head = some full) (hd : g.date = none) :
    versions c keywords g dirs = .error .attributeError := by
  rw [C169_checkout]
  have key : pieces c.tagPrefix g = .error .attributeError := by
    have ok := C169_pieces c.tagPrefix t h full [] n dirty { g with date := some [] } ht hh hi hg hf rfl
    unfold pieces at ok ⊢
    dsimp only at ok
    rw [if_pos hi] at ok ⊢
    cases hde : g.describe with
    | none => rw [hde] at hg; cases hg
    | some out =>
      rw [hde, hf] at ok
      rw [hf]
      dsimp only at ok ⊢
      unfold parse at ok ⊢
      by_cases hm : '-' ∈ (clean (strip out)).2
      · rw [if_pos hm] at ok ⊢
        cases hgr : groups (clean (strip out)).2 with
        | none => rw [hgr] at ok; simp at ok
        | some q =>
          obtain ⟨u, d, k⟩ := q
          rw [hgr] at ok
          dsimp only at ok ⊢
          by_cases hs : starts c.tagPrefix u = true
          · rw [if_pos hs]; unfold withDate; rw [hd]
          · rw [if_neg hs] at ok; simp at ok
      · exfalso
        apply hm
        rw [hde] at hg
        simp only [Option.map_some, Option.some.injEq] at hg
        rw [hg]
        rw [clean_described _ n h dirty hh]
        simp
  unfold fromGit
  rw [key]
  rfl

/-- The same for a checkout without tags whose commits could not be counted. -/
theorem C169_count_violated (c : Config) (h full : Text) (dirty : Bool) (g : Git) (dirs : List Text) (hh : Name h)
    (hi : g.inside = true) (hg : g.describe.map strip = some (h ++ if dirty then (chars! "-dirty") else []))
    (hf : g.head = some full) (hc : g.count = none) : versions c keywords g dirs = .error .typeError := by
  rw [C169_checkout]
  have key : pieces c.tagPrefix g = .error .typeError := by
    unfold pieces
    rw [if_pos hi]
    cases hq : g.describe with
    | none => rw [hq] at hg; cases hg
    | some out =>
      rw [hq] at hg
      simp only [Option.map_some, Option.some.injEq] at hg
      rw [hf]
      dsimp only
      rw [hg]
      have hcl : clean (h ++ if dirty then (chars! "-dirty") else []) = (dirty, h) := by
        cases dirty with
        | true => exact clean_dirty h
        | false => simpa using clean_name (s := []) hh
      rw [hcl]
      dsimp only
      unfold parse
      rw [if_neg (fun hm => by have := hh.2 _ hm; exact absurd this (by decide)), hc]
  unfold fromGit
  rw [key]
  rfl

/-! ### An archive -/

theorem chosen_spec {pre t : Text} {ts : List Text} (h : chosen pre ts = some t) :
    t ∈ ts ∧ starts pre t = true ∧ ∀ u ∈ ts, starts pre u = true → t ≤ u := by
  unfold chosen at h
  have hs : (ts.mergeSort (fun a b => decide (a ≤ b))).Pairwise (fun a b => a ≤ b) := by
    have := List.pairwise_mergeSort (le := fun a b : Text => decide (a ≤ b))
      (fun a b c h₁ h₂ => by simp only [decide_eq_true_eq] at *; exact List.le_trans h₁ h₂)
      (fun a b => by simp only [Bool.or_eq_true, decide_eq_true_eq]; exact List.le_total a b) ts
    simpa using this
  obtain ⟨hp, as, bs, he, hn⟩ := List.find?_eq_some_iff_append.1 h
  rw [he] at hs
  have hmem : ∀ u, u ∈ ts ↔ u ∈ as ++ t :: bs := by
    intro u; rw [← he, List.mem_mergeSort]
  refine ⟨(hmem t).2 (by simp), hp, fun u hu hpu => ?_⟩
  rcases List.mem_append.1 ((hmem u).1 hu) with h' | h'
  · have := hn u h'
    rw [hpu] at this; cases this
  · rcases List.mem_cons.1 h' with rfl | h'
    · exact List.le_refl _
    · exact List.rel_of_pairwise_cons (List.pairwise_append.1 hs).2.1 h'

/-- An archive: the version is the tag with the prefix that comes first in the order of texts, without the prefix;
without such a tag it is the unknown version, still with the full name of the commit. -/
theorem C169_archive (c : Config) (k : Keywords) (g : Git) (dirs : List Text) (r f : Text) (hr : k.refnames = some r)
    (hf : k.full = some f) (hx : starts (chars! "$Format") (strip r) = false) :
    (∃ t u, c.tagPrefix ++ u = t ∧ t ∈ likely (refs (strip r)) ∧
      (∀ v ∈ likely (refs (strip r)), starts c.tagPrefix v = true → t ≤ v) ∧
      versions c k g dirs = .ok ⟨u, some (strip f), some false, none, k.date.map iso⟩) ∨
    ((∀ v ∈ likely (refs (strip r)), starts c.tagPrefix v = false) ∧
      versions c k g dirs = .ok ⟨(chars! "0+unknown"), some (strip f), some false, some (chars! "no suitable tags"), none⟩) := by
  unfold versions fromKeywords
  rw [if_neg (by rintro ⟨h, _⟩; rw [hr] at h; cases h), hr]
  dsimp only
  rw [hx, hf]
  simp only [Bool.false_eq_true, if_false]
  cases hc : chosen c.tagPrefix (likely (refs (strip r))) with
  | some t =>
    left
    obtain ⟨hm, hs, hle⟩ := chosen_spec hc
    obtain ⟨u, hu⟩ := starts_iff.1 hs
    refine ⟨t, u, hu.symm, hm, hle, ?_⟩
    simp [hu]
  | none =>
    right
    refine ⟨fun v hv => ?_, rfl⟩
    unfold chosen at hc
    rw [List.find?_eq_none] at hc
    simpa using hc v (List.mem_mergeSort.2 hv)

/-- The order is that of texts, smallest first, so of two releases on one commit the older is named: with the tags
`v2.0` and `v1.10` the version is `1.10`. -/
theorem C169_order_violated : ∃ (k : Keywords) (g : Git), ∃ a, versions config k g [] = .ok a ∧
    a.version = (chars! "1.10") ∧ (chars! "v2.0") ∈ likely (refs (strip (k.refnames.getD []))) := by
  have hl : likely (refs (strip (chars! " (tag: v2.0, tag: v1.10)"))) = [(chars! "v2.0"), (chars! "v1.10")] := by decide +kernel
  refine ⟨⟨some (chars! " (tag: v2.0, tag: v1.10)"), some (chars! "abc"), none⟩, ⟨false, none, none, none, none⟩, ?_⟩
  rcases C169_archive config ⟨some (chars! " (tag: v2.0, tag: v1.10)"), some (chars! "abc"), none⟩
    ⟨false, none, none, none, none⟩ [] _ _ rfl rfl (by decide +kernel) with ⟨t, u, hu, hm, hle, hv⟩ | ⟨h, _⟩
  · refine ⟨_, hv, ?_, ?_⟩
    · rw [hl] at hm hle
      have h10 := hle (chars! "v1.10") (by simp) (by decide +kernel)
      rcases List.mem_cons.1 hm with rfl | hm
      · exact absurd h10 (by decide +kernel)
      · have : t = (chars! "v1.10") := by simpa using hm
        rw [this] at hu
        have e : config.tagPrefix ++ u = 'v' :: u := rfl
        rw [e] at hu
        simpa using hu
    · show _ ∈ likely (refs (strip (chars! " (tag: v2.0, tag: v1.10)")))
      rw [hl]; simp
  · rw [hl] at h
    exact absurd (h (chars! "v2.0") (by simp)) (by decide +kernel)

/-- Without any tag a branch whose name begins with the prefix and has a digit is taken for a release. -/
theorem C169_branch_violated : chosen config.tagPrefix (likely (refs (strip (chars! " (HEAD -> v2-dev)")))) = none ∧
    chosen config.tagPrefix (likely (refs (strip (chars! " (HEAD, v2-dev)")))) = some (chars! "v2-dev") := by
  have h₁ : likely (refs (strip (chars! " (HEAD -> v2-dev)"))) = [(chars! "HEAD -> v2-dev")] := by decide +kernel
  have h₂ : likely (refs (strip (chars! " (HEAD, v2-dev)"))) = [(chars! "v2-dev")] := by decide +kernel
  rw [h₁, h₂]
  constructor
  · unfold chosen; rw [List.mergeSort_singleton]; decide +kernel
  · unfold chosen; rw [List.mergeSort_singleton]; decide +kernel

/-! ### Cases -/

/-- A tag with hyphens and digits. -/
example : pieces (chars! "v") ⟨true, some (chars! "v1.2-3-rc-14-gabc12f-dirty\n"), some (chars! "abc12f00\n"), none, some (chars! "2024-01-02 03:04:05 +0100\n")⟩ =
    .ok ⟨(chars! "abc12f00"), (chars! "abc12f"), none, true, some (chars! "1.2-3-rc"), 14, some (chars! "2024-01-02T03:04:05+0100")⟩ := by
  rw [C169_pieces (chars! "v") (chars! "1.2-3-rc") (chars! "abc12f") (chars! "abc12f00\n") (chars! "2024-01-02 03:04:05 +0100\n") 14 true _
    (by decide) ⟨by decide, by decide⟩ rfl (by decide +kernel) rfl rfl]
  decide +kernel

example : Name (chars! "abc12f") := ⟨by decide, by decide⟩

example : pep440 ⟨[], (chars! "abc"), none, true, some (chars! "1.0+local"), 3, none⟩ = (chars! "1.0+local.3.gabc.dirty") := by decide +kernel

end Verif.Version
