import Verif.VersionProps
/-! Further theorems of C169: the text of every style in every case, the names of the styles, and the directory as the source of the version. -/
namespace Verif.Version

open Verif.Jobs (Text dec starts)

/-- What `render` answers for pieces without an error. -/
def shows (style : Text) (p : Pieces) (v : Text) : Prop :=
  render p style = .ok ⟨v, some p.long, some p.dirty, none, p.date⟩

/-- C169: the names of the styles; every other name is refused, whatever the pieces (without an error) are. -/
theorem C169_style_names (p : Pieces) (style : Text) (hp : p.error = none) :
    (∃ v, shows style p v) ↔ style ∈ [[], (chars! "default"), (chars! "pep440"), (chars! "pep440-pre"), (chars! "pep440-post"), (chars! "pep440-old"),
      (chars! "git-describe"), (chars! "git-describe-long")] := by
  unfold shows render
  rw [hp]
  constructor
  · rintro ⟨v, h⟩
    dsimp only at h
    unfold renderer at h
    split_ifs at h with h1 h2 h3 h4 h5 h6
    · rcases h1 with rfl | rfl | rfl <;> simp
    all_goals simp_all
  · intro h
    simp only [List.mem_cons, List.not_mem_nil, or_false] at h
    rcases h with rfl | rfl | rfl | rfl | rfl | rfl | rfl | rfl <;> exact ⟨_, rfl⟩

theorem C169_style_refused (p : Pieces) (style : Text) (hp : p.error = none) (h : ¬ ∃ v, shows style p v) : render p style = .error .valueError := by
  unfold shows render at *
  rw [hp] at h ⊢
  dsimp only at h ⊢
  cases hr : renderer style with
  | none => rfl
  | some r => rw [hr] at h; exact absurd ⟨_, rfl⟩ h

/-- C169: a release, that is a commit with a tag and no change: every style but the last gives the tag alone. -/
theorem C169_styles_release (long short tag : Text) (date : Option Text) (ht : tag ≠ []) :
    let p : Pieces := ⟨long, short, none, false, some tag, 0, date⟩
    shows [] p tag ∧ shows (chars! "default") p tag ∧ shows (chars! "pep440") p tag ∧ shows (chars! "pep440-pre") p tag ∧ shows (chars! "pep440-post") p tag ∧
    shows (chars! "pep440-old") p tag ∧ shows (chars! "git-describe") p tag ∧ shows (chars! "git-describe-long") p (tag ++ (chars! "-0-g") ++ short) := by
  have e : tagOf ⟨long, short, none, false, some tag, 0, date⟩ = some tag := by simp [tagOf, Option.filter, ht]
  have z : dec 0 = ['0'] := by decide +kernel
  refine ⟨?_, ?_, ?_, ?_, ?_, ?_, ?_, ?_⟩ <;>
    simp [shows, render, renderer, pep440, pep440Pre, pep440Post, pep440Old, gitDescribe, gitDescribeLong, e, mark, z]

/-- C169: a commit after a tag, changed or not, and a changed commit with a tag. -/
theorem C169_styles_after (long short tag : Text) (date : Option Text) (n : ℕ) (dirty : Bool) (ht : tag ≠ []) (hp : '+' ∉ tag) (h : n ≠ 0 ∨ dirty = true) :
    let p : Pieces := ⟨long, short, none, dirty, some tag, n, date⟩
    shows (chars! "pep440") p (tag ++ ['+'] ++ dec n ++ (chars! ".g") ++ short ++ if dirty then (chars! ".dirty") else []) ∧
    shows (chars! "pep440-pre") p (tag ++ if n = 0 then [] else (chars! ".post.dev") ++ dec n) ∧
    shows (chars! "pep440-post") p (tag ++ (chars! ".post") ++ dec n ++ (if dirty then (chars! ".dev0") else []) ++ (chars! "+g") ++ short) ∧
    shows (chars! "pep440-old") p (tag ++ (chars! ".post") ++ dec n ++ if dirty then (chars! ".dev0") else []) ∧
    shows (chars! "git-describe") p (tag ++ (if n = 0 then [] else ['-'] ++ dec n ++ (chars! "-g") ++ short) ++ if dirty then (chars! "-dirty") else []) := by
  have e : tagOf ⟨long, short, none, dirty, some tag, n, date⟩ = some tag := by simp [tagOf, Option.filter, ht]
  refine ⟨?_, ?_, ?_, ?_, ?_⟩
  · simp [shows, render, renderer, pep440, e, mark, plusOrDot, hp, h]
  · by_cases hn : n = 0
    · subst hn; simp [shows, render, renderer, pep440Pre, e]
    · simp [shows, render, renderer, pep440Pre, e, hn]
  · simp [shows, render, renderer, pep440Post, e, mark, plusOrDot, hp, h]
  · simp [shows, render, renderer, pep440Old, e, mark, h]
  · by_cases hn : n = 0
    · subst hn; simp [shows, render, renderer, gitDescribe, e, mark, dirtyMark]
    · simp [shows, render, renderer, gitDescribe, e, hn, mark, dirtyMark]

/-- C169: a commit without a tag. -/
theorem C169_styles_untagged (long short : Text) (date : Option Text) (n : ℕ) (dirty : Bool) :
    let p : Pieces := ⟨long, short, none, dirty, none, n, date⟩
    shows (chars! "pep440") p ((chars! "0+untagged.") ++ dec n ++ (chars! ".g") ++ short ++ if dirty then (chars! ".dirty") else []) ∧
    shows (chars! "pep440-pre") p ((chars! "0.post.dev") ++ dec n) ∧
    shows (chars! "pep440-post") p ((chars! "0.post") ++ dec n ++ (if dirty then (chars! ".dev0") else []) ++ (chars! "+g") ++ short) ∧
    shows (chars! "pep440-old") p ((chars! "0.post") ++ dec n ++ if dirty then (chars! ".dev0") else []) ∧
    shows (chars! "git-describe") p (short ++ if dirty then (chars! "-dirty") else []) ∧
    shows (chars! "git-describe-long") p (short ++ if dirty then (chars! "-dirty") else []) := by
  have e : tagOf ⟨long, short, none, dirty, none, n, date⟩ = none := by simp [tagOf]
  refine ⟨?_, ?_, ?_, ?_, ?_, ?_⟩ <;>
    simp [shows, render, renderer, pep440, pep440Pre, pep440Post, pep440Old, gitDescribe, gitDescribeLong, e, mark, dirtyMark]

/-- C169: without git, and with a prefix for directories: the nearest of three directories with the prefix gives the version, the rest of its name. -/
theorem C169_directory (c : Config) (g : Git) (near far : List Text) (v : Text) (hg : g.inside = false) (hc : c.parentPrefix ≠ [])
    (hn : near.length < 3) (hp : ∀ d ∈ near, ¬ c.parentPrefix <+: d) :
    versions c keywords g (near ++ (c.parentPrefix ++ v) :: far) = .ok ⟨v, none, some false, none, none⟩ := by
  rw [C169_checkout]
  have hpc : pieces c.tagPrefix g = .error .notThisMethod := by unfold pieces; simp [hg]
  have hb : (pieces c.tagPrefix g).bind (render · c.style) = .error .notThisMethod := by rw [hpc]; rfl
  unfold fromGit
  rw [hb]
  dsimp only
  unfold lastResort
  rw [if_neg hc]
  have hf : ((near ++ (c.parentPrefix ++ v) :: far).take 3).find? (starts c.parentPrefix) = some (c.parentPrefix ++ v) := by
    have : (near ++ (c.parentPrefix ++ v) :: far).take 3 = near ++ (c.parentPrefix ++ v) :: far.take (2 - near.length) := by
      rw [List.take_append, List.take_of_length_le (by omega)]
      congr 1
      obtain ⟨k, hk⟩ : ∃ k, 3 - near.length = k + 1 := ⟨2 - near.length, by omega⟩
      rw [hk, List.take_succ_cons]
      congr 2
      omega
    rw [this, List.find?_append]
    have h0 : near.find? (starts c.parentPrefix) = none := by
      rw [List.find?_eq_none]
      intro d hd hs
      obtain ⟨r, hr⟩ := starts_iff.1 hs
      exact hp d hd ⟨r, hr.symm⟩
    rw [h0, List.find?_cons_of_pos (starts_append _ _)]
    rfl
  have hfp : fromParent c.parentPrefix (near ++ (c.parentPrefix ++ v) :: far) = .ok ⟨v, none, some false, none, none⟩ := by
    unfold fromParent
    rw [hf]
    simp
  rw [hfp]

/-- C169: directories further up are not looked at. -/
theorem C169_directory_far (c : Config) (g : Git) (dirs : List Text) (hg : g.inside = false) (hp : ∀ d ∈ dirs.take 3, ¬ c.parentPrefix <+: d) :
    versions c keywords g dirs = .ok ⟨(chars! "0+unknown"), none, none, some (chars! "unable to compute version"), none⟩ := by
  rw [C169_checkout]
  have hpc : pieces c.tagPrefix g = .error .notThisMethod := by unfold pieces; simp [hg]
  have hb : (pieces c.tagPrefix g).bind (render · c.style) = .error .notThisMethod := by rw [hpc]; rfl
  unfold fromGit
  rw [hb]
  dsimp only
  unfold lastResort
  split
  · rfl
  · have hfp : fromParent c.parentPrefix dirs = .error .notThisMethod := by
      unfold fromParent
      have : (dirs.take 3).find? (starts c.parentPrefix) = none := by
        rw [List.find?_eq_none]
        intro d hd hs
        obtain ⟨r, hr⟩ := starts_iff.1 hs
        exact hp d hd ⟨r, hr.symm⟩
      rw [this]
    rw [hfp]
    rfl

example : versions ⟨(chars! "pep440"), (chars! "v"), (chars! "psycris-")⟩ keywords ⟨false, none, none, none, none⟩ [(chars! "src"), (chars! "psycris-1.2")] =
    .ok ⟨(chars! "1.2"), none, some false, none, none⟩ :=
  C169_directory ⟨(chars! "pep440"), (chars! "v"), (chars! "psycris-")⟩ ⟨false, none, none, none, none⟩ [(chars! "src")] [] (chars! "1.2") rfl (by decide)
    (by decide) (by decide)

example : shows (chars! "pep440-old") ⟨[], (chars! "abc"), none, true, some (chars! "1.0"), 3, none⟩ (chars! "1.0.post3.dev0") := by
  have := (C169_styles_after [] (chars! "abc") (chars! "1.0") none 3 true (by decide) (by decide) (by simp)).2.2.2.1
  exact this

theorem replaceOne_at (c : Char) (b l r : Text) (h : c ∉ l) : replaceOne c b (l ++ c :: r) = l ++ (b ++ r) := by
  induction l with
  | nil => simp [replaceOne]
  | cons x l ih =>
    have hx : x ≠ c := fun e => h (by simp [e])
    simp only [List.cons_append, replaceOne, if_neg hx]
    rw [ih (fun hc => h (List.mem_cons_of_mem _ hc))]

/-- C169: the date of git, day, time and zone separated by single spaces, becomes day `T` time zone. -/
theorem C169_iso (out day time zone : Text) (hs : Jobs.strip out = day ++ ' ' :: (time ++ ' ' :: zone)) (hd : ' ' ∉ day) (ht : ' ' ∉ time) :
    iso out = day ++ 'T' :: (time ++ zone) := by
  unfold iso
  rw [hs, replaceOne_at _ _ _ _ hd]
  have : day ++ (['T'] ++ (time ++ ' ' :: zone)) = (day ++ 'T' :: time) ++ ' ' :: zone := by simp
  rw [this, replaceOne_at _ _ _ _ (by simp [hd, ht])]
  simp

example : iso (chars! "2020-03-04 12:30:00 +0100\n") = (chars! "2020-03-04T12:30:00+0100") := by decide +kernel

/-- C169 violated: keywords that lack the references or the commit, but not everything, stop with `KeyError`, although git could be asked. -/
theorem C169_keys_violated (c : Config) (k : Keywords) (g : Git) (dirs : List Text) :
    (k.refnames = none → (k.full.isSome ∨ k.date.isSome) → versions c k g dirs = .error .keyError) ∧
    (∀ r, k.refnames = some r → ¬ (chars! "$Format") <+: Jobs.strip r → k.full = none → versions c k g dirs = .error .keyError) := by
  constructor
  · intro hr ho
    have : fromKeywords k c.tagPrefix = .error .keyError := by
      unfold fromKeywords
      rw [if_neg (by rintro ⟨_, h1, h2⟩; rw [h1, h2] at ho; simp at ho), hr]
    unfold versions
    rw [this]
  · intro r hr hs hf
    have h0 : ¬ starts (chars! "$Format") (Jobs.strip r) = true := fun h => hs (by obtain ⟨q, hq⟩ := starts_iff.1 h; exact ⟨q, hq.symm⟩)
    have : fromKeywords k c.tagPrefix = .error .keyError := by
      unfold fromKeywords
      rw [if_neg (by rintro ⟨h1, _⟩; rw [hr] at h1; cases h1), hr]
      dsimp only
      rw [if_neg h0, hf]
    unfold versions
    rw [this]

/-- C169: without any keyword git is asked. -/
theorem C169_no_keys (c : Config) (g : Git) (dirs : List Text) : versions c ⟨none, none, none⟩ g dirs = fromGit c g dirs := rfl

end Verif.Version
