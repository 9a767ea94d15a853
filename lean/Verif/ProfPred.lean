import Verif.Chars
import Mathlib.Algebra.Order.Field.Rat
import Mathlib.Algebra.Order.Floor.Ring
import Mathlib.Data.Rat.Floor
import Mathlib.Tactic.Linarith
import Mathlib.Tactic.FieldSimp
import Mathlib.Tactic.Ring
/-!
Model of the prediction of composition profiles, `/repo/posydon/interpolation/profile_interpolation.py` `Composition.predict_single`
(l.730-811) and the list of states (l.561-580).

Simplifications: an array of 200 numbers is a function of its index, of which the first 200 values are meant; an array of nan is
`none`. The outputs of the networks are parameters. The interpolator of `posydon/utils/interpolators.py` l.16-121 is written out for two
nodes: it refuses two equal nodes with different values (its assertion, l.85, fails), sorts nodes, and has the given values outside.
-/
namespace Verif.ProfPred

abbrev Name := List Char

inductive Err
  | key | assertion
  deriving DecidableEq

/-- l.561-573 -/
def states : List Name :=
  [(chars! "None"), (chars! "WD"), (chars! "NS"), (chars! "BH"), (chars! "stripped_He_non_burning"), (chars! "stripped_He_Core_He_burning"),
   (chars! "stripped_He_Core_C_burning"), (chars! "stripped_He_Core_He_depleted"), (chars! "stripped_He_Core_C_depleted"), (chars! "H-rich_non_burning"),
   (chars! "H-rich_Core_He_depleted"), (chars! "H-rich_Core_C_depleted"), (chars! "H-rich_Shell_H_burning"), (chars! "H-rich_Core_H_burning"),
   (chars! "H-rich_Core_He_burning"), (chars! "H-rich_Core_C_burning")]

abbrev Prof := Option (ℕ → ℚ)

/-- `int(b * 200)` -/
def idx (b : ℚ) : ℕ := ⌊b * 200⌋.toNat

/-- The interpolator with two nodes, the first before the second. -/
def ramp (b0 b1 c s x : ℚ) : ℚ := if x < b0 then c else if x > b1 then s else c + (s - c) / (b1 - b0) * (x - b0)

/-- A profile with the value `c` in the centre and `s` at the surface, changing between two boundaries (l.750-755, 773-777, 785-789, 798-808). -/
def bevel (c s b0 b1 : ℚ) : Except Err (ℕ → ℚ) :=
  if b0 = b1 ∧ c ≠ s then .error .assertion
  else .ok fun k => if idx b0 ≤ k ∧ k < idx b1 then ramp b0 b1 c s (k / 199) else if idx b1 ≤ k then s else c

/-- `'stripped_He_C' in star_state` -/
def contains (p : Name) : Name → Bool
  | [] => p.isEmpty
  | c :: cs => p.isPrefixOf (c :: cs) || contains p cs

/-- The abundances at the centre and the surface. -/
structure Ends where
  cH : ℚ
  sH : ℚ
  cHe : ℚ
  sHe : ℚ

/-- `predict_single`, l.730-811. `trained` are the states with training data, `net` the boundaries that the network of a state gives. -/
def predict (trained : Name → Bool) (net : Name → ℕ → ℚ) (e : Ends) (st : Name) : Except Err (Prof × Prof) :=
  let b := net st
  if st ∉ states then .error .key
  else if trained st = false then .ok (none, none)
  else if st = (chars! "stripped_He_non_burning") then .ok (some fun _ => 0, some fun _ => (e.sHe + e.cHe) / 2)
  else if contains (chars! "stripped_He_C") st = true then
    match bevel e.cHe e.sHe (b 0) (b 1) with
    | .error x => .error x
    | .ok he => .ok (some fun _ => 0, some he)
  else if st ∈ [(chars! "H-rich_non_burning"), (chars! "None")] then .ok (some fun _ => e.sH, some fun _ => e.sHe)
  else if st ∈ [(chars! "WD"), (chars! "NS"), (chars! "BH")] then .ok (none, none)
  else if st ∈ [(chars! "H-rich_Core_He_depleted"), (chars! "H-rich_Core_C_depleted")] then
    let h : ℕ → ℚ := fun k => if idx (b 0) ≤ k then e.sH else e.cH
    match bevel (e.cH + e.cHe) (e.sH + e.sHe) (b 1) (b 2) with
    | .error x => .error x
    | .ok plus => .ok (some h, some fun k => plus k - h k)
  else if st ∈ [(chars! "H-rich_Shell_H_burning"), (chars! "H-rich_Core_H_burning")] then
    match bevel e.cH e.sH (b 0) (b 1) with
    | .error x => .error x
    | .ok h => .ok (some h, some fun k => e.sH + e.sHe - h k)
  else
    match bevel e.cH e.sH (b 0) (b 1) with
    | .error x => .error x
    | .ok h =>
      match bevel (e.cH + e.cHe) (e.sH + e.sHe) (b 2) (b 3) with
      | .error x => .error x
      | .ok plus => .ok (some h, some fun k => plus k - h k)

/-! ### Specification -/

/-- `x` is between `a` and `b`, in any order. -/
def Between (a b x : ℚ) : Prop := min a b ≤ x ∧ x ≤ max a b

/-- A profile that goes from one value to another in one direction. -/
def OneWay (c s : ℚ) (p : ℕ → ℚ) : Prop := (c ≤ s → Monotone p) ∧ (s ≤ c → Antitone p)

/-- The abundances are fractions of the mass. -/
structure Ends.Ok (e : Ends) : Prop where
  cH : 0 ≤ e.cH
  sH : 0 ≤ e.sH
  cHe : 0 ≤ e.cHe
  sHe : 0 ≤ e.sHe
  c : e.cH + e.cHe ≤ 1
  s : e.sH + e.sHe ≤ 1

/-! ### Lemmas -/

theorem between_left (a b : ℚ) : Between a b a := ⟨min_le_left _ _, le_max_left _ _⟩
theorem between_right (a b : ℚ) : Between a b b := ⟨min_le_right _ _, le_max_right _ _⟩

theorem idx_mono {a b : ℚ} (h : a ≤ b) : idx a ≤ idx b := Int.toNat_le_toNat (Int.floor_le_floor (by linarith))

theorem ramp_eq {b0 b1 : ℚ} (hb : b0 < b1) (c s x : ℚ) :
    ∃ t, 0 ≤ t ∧ t ≤ 1 ∧ ramp b0 b1 c s x = c + (s - c) * t ∧ t = max 0 (min 1 ((x - b0) / (b1 - b0))) := by
  have hd : 0 < b1 - b0 := by linarith
  refine ⟨_, le_max_left _ _, max_le (by norm_num) (min_le_left _ _), ?_, rfl⟩
  unfold ramp
  by_cases h1 : x < b0
  · rw [if_pos h1]
    have : (x - b0) / (b1 - b0) < 0 := div_neg_of_neg_of_pos (by linarith) hd
    rw [min_eq_right (by linarith), max_eq_left (by linarith)]
    ring
  · rw [if_neg h1]
    push Not at h1
    by_cases h2 : x > b1
    · rw [if_pos h2]
      have : 1 ≤ (x - b0) / (b1 - b0) := by rw [le_div_iff₀ hd]; linarith
      rw [min_eq_left this, max_eq_right (by norm_num)]
      ring
    · rw [if_neg h2]
      push Not at h2
      have h3 : (x - b0) / (b1 - b0) ≤ 1 := by rw [div_le_one hd]; linarith
      have h4 : 0 ≤ (x - b0) / (b1 - b0) := div_nonneg (by linarith) hd.le
      rw [min_eq_right h3, max_eq_right h4]
      field_simp

theorem between_mix {c s t : ℚ} (h0 : 0 ≤ t) (h1 : t ≤ 1) : Between c s (c + (s - c) * t) := by
  constructor
  · rcases le_total c s with h | h
    · rw [min_eq_left h]; nlinarith
    · rw [min_eq_right h]; nlinarith
  · rcases le_total c s with h | h
    · rw [max_eq_right h]; nlinarith
    · rw [max_eq_left h]; nlinarith

/-- The values of a profile with two boundaries: the share of the way from the centre to the surface. -/
def share (b0 b1 : ℚ) (k : ℕ) : ℚ :=
  if idx b0 ≤ k ∧ k < idx b1 then max 0 (min 1 (((k : ℚ) / 199 - b0) / (b1 - b0))) else if idx b1 ≤ k then 1 else 0

theorem share_range (b0 b1 : ℚ) (k : ℕ) : 0 ≤ share b0 b1 k ∧ share b0 b1 k ≤ 1 := by
  unfold share
  split_ifs
  · exact ⟨le_max_left _ _, max_le (by norm_num) (min_le_left _ _)⟩
  · norm_num
  · norm_num

theorem share_mono (b0 b1 : ℚ) : Monotone (share b0 b1) := by
  intro j k hjk
  unfold share
  by_cases hk : idx b1 ≤ k
  · have : ¬ (idx b0 ≤ k ∧ k < idx b1) := by omega
    rw [if_neg this, if_pos hk]
    exact (share_range b0 b1 j).2
  · have hj : ¬ idx b1 ≤ j := by omega
    by_cases h0 : idx b0 ≤ j
    · rw [if_pos ⟨h0, by omega⟩, if_pos ⟨by omega, by omega⟩]
      have hb : b0 < b1 := by
        by_contra hb
        push Not at hb
        have := idx_mono hb
        omega
      have hd : 0 < b1 - b0 := by linarith
      have hc : (j : ℚ) ≤ k := by exact_mod_cast hjk
      refine max_le_max le_rfl (min_le_min le_rfl ?_)
      rw [div_le_div_iff_of_pos_right hd]
      linarith
    · have hnj : ¬ (idx b0 ≤ j ∧ j < idx b1) := fun h => h0 h.1
      rw [if_neg hnj, if_neg hj]
      exact (share_range b0 b1 k).1

theorem bevel_ok {c s b0 b1 : ℚ} {p : ℕ → ℚ} (h : bevel c s b0 b1 = .ok p) : ∀ k, p k = c + (s - c) * share b0 b1 k := by
  unfold bevel at h
  by_cases he : b0 = b1 ∧ c ≠ s
  · rw [if_pos he] at h; cases h
  · rw [if_neg he] at h
    cases h
    intro k
    dsimp only
    unfold share
    by_cases h1 : idx b0 ≤ k ∧ k < idx b1
    · have hb : b0 < b1 := by
        by_contra hb
        push Not at hb
        have := idx_mono hb
        omega
      obtain ⟨t, _, _, ht, he⟩ := ramp_eq hb c s ((k : ℚ) / 199)
      rw [if_pos h1, if_pos h1, ht, he]
    · rw [if_neg h1, if_neg h1]
      by_cases h2 : idx b1 ≤ k
      · rw [if_pos h2, if_pos h2]; ring
      · rw [if_neg h2, if_neg h2]; ring

theorem bevel_between {c s b0 b1 : ℚ} {p : ℕ → ℚ} (h : bevel c s b0 b1 = .ok p) (k : ℕ) : Between c s (p k) := by
  rw [bevel_ok h k]
  exact between_mix (share_range _ _ k).1 (share_range _ _ k).2

theorem mix_oneWay {c s : ℚ} {t : ℕ → ℚ} (ht : Monotone t) : OneWay c s fun k => c + (s - c) * t k := by
  refine ⟨fun h j k hjk => ?_, fun h j k hjk => ?_⟩
  · have := ht hjk
    dsimp only
    nlinarith
  · have := ht hjk
    dsimp only
    nlinarith

theorem bevel_oneWay {c s b0 b1 : ℚ} {p : ℕ → ℚ} (h : bevel c s b0 b1 = .ok p) : OneWay c s p := by
  have : p = fun k => c + (s - c) * share b0 b1 k := funext (bevel_ok h)
  rw [this]
  exact mix_oneWay (share_mono b0 b1)

theorem idx_lt {b : ℚ} (h : b < 1) : idx b ≤ 199 := by
  unfold idx
  have : ⌊b * 200⌋ < 200 := by
    rw [Int.floor_lt]
    push_cast
    linarith
  omega

theorem bevel_surface {c s b0 b1 : ℚ} {p : ℕ → ℚ} (h : bevel c s b0 b1 = .ok p) (hb : b1 < 1) : p 199 = s := by
  rw [bevel_ok h]
  unfold share
  have h1 := idx_lt hb
  have h2 : ¬ (idx b0 ≤ 199 ∧ 199 < idx b1) := by omega
  rw [if_neg h2, if_pos h1]
  ring

theorem idx_pos {b : ℚ} (h : 1 / 200 ≤ b) : 1 ≤ idx b := by
  unfold idx
  have : 1 ≤ ⌊b * 200⌋ := by
    rw [Int.le_floor]
    push_cast
    linarith
  omega

theorem bevel_center {c s b0 b1 : ℚ} {p : ℕ → ℚ} (h : bevel c s b0 b1 = .ok p) (hb0 : 1 / 200 ≤ b0) (hb1 : 1 / 200 ≤ b1) : p 0 = c := by
  rw [bevel_ok h]
  unfold share
  have h0 := idx_pos hb0
  have h1 := idx_pos hb1
  have h2 : ¬ (idx b0 ≤ 0 ∧ 0 < idx b1) := by omega
  have h3 : ¬ idx b1 ≤ 0 := by omega
  rw [if_neg h2, if_neg h3]
  ring

/-- The kinds of answers. -/
inductive Kind (net : Name → ℕ → ℚ) (e : Ends) (st : Name) : Prof → Prof → Prop
  | nan : Kind net e st none none
  | flatHe (h : st = (chars! "stripped_He_non_burning")) : Kind net e st (some fun _ => 0) (some fun _ => (e.sHe + e.cHe) / 2)
  | stripped {he} (h : bevel e.cHe e.sHe (net st 0) (net st 1) = .ok he) (hs : contains (chars! "stripped_He_C") st = true) :
      Kind net e st (some fun _ => 0) (some he)
  | flat (h : st ∈ [(chars! "H-rich_non_burning"), (chars! "None")]) : Kind net e st (some fun _ => e.sH) (some fun _ => e.sHe)
  | depleted {plus} (h : bevel (e.cH + e.cHe) (e.sH + e.sHe) (net st 1) (net st 2) = .ok plus)
      (hs : st ∈ [(chars! "H-rich_Core_He_depleted"), (chars! "H-rich_Core_C_depleted")]) :
      Kind net e st (some fun k => if idx (net st 0) ≤ k then e.sH else e.cH)
        (some fun k => plus k - if idx (net st 0) ≤ k then e.sH else e.cH)
  | burningH {h} (hh : bevel e.cH e.sH (net st 0) (net st 1) = .ok h)
      (hs : st ∈ [(chars! "H-rich_Shell_H_burning"), (chars! "H-rich_Core_H_burning")]) :
      Kind net e st (some h) (some fun k => e.sH + e.sHe - h k)
  | burning {h plus} (hh : bevel e.cH e.sH (net st 0) (net st 1) = .ok h)
      (hp : bevel (e.cH + e.cHe) (e.sH + e.sHe) (net st 2) (net st 3) = .ok plus)
      (hs : st ∈ [(chars! "H-rich_Core_He_burning"), (chars! "H-rich_Core_C_burning")]) :
      Kind net e st (some h) (some fun k => plus k - h k)

theorem rest_states : ∀ st ∈ states, st ≠ (chars! "stripped_He_non_burning") → contains (chars! "stripped_He_C") st = false →
    st ∉ [(chars! "H-rich_non_burning"), (chars! "None")] → st ∉ [(chars! "WD"), (chars! "NS"), (chars! "BH")] →
    st ∉ [(chars! "H-rich_Core_He_depleted"), (chars! "H-rich_Core_C_depleted")] →
    st ∉ [(chars! "H-rich_Shell_H_burning"), (chars! "H-rich_Core_H_burning")] →
    st ∈ [(chars! "H-rich_Core_He_burning"), (chars! "H-rich_Core_C_burning")] := by decide +kernel

theorem predict_kind {trained : Name → Bool} {net : Name → ℕ → ℚ} {e : Ends} {st : Name} {r : Prof × Prof}
    (h : predict trained net e st = .ok r) : Kind net e st r.1 r.2 := by
  unfold predict at h
  dsimp only at h
  by_cases h0 : st ∉ states
  · rw [if_pos h0] at h; cases h
  rw [if_neg h0] at h
  by_cases h1 : trained st = false
  · rw [if_pos h1] at h; cases h; exact .nan
  rw [if_neg h1] at h
  by_cases h2 : st = (chars! "stripped_He_non_burning")
  · rw [if_pos h2] at h; cases h; exact .flatHe h2
  rw [if_neg h2] at h
  by_cases h3 : contains (chars! "stripped_He_C") st = true
  · rw [if_pos h3] at h
    cases hb : bevel e.cHe e.sHe (net st 0) (net st 1) with
    | error x => rw [hb] at h; cases h
    | ok he => rw [hb] at h; cases h; exact .stripped hb h3
  rw [if_neg h3] at h
  by_cases h4 : st ∈ [(chars! "H-rich_non_burning"), (chars! "None")]
  · rw [if_pos h4] at h; cases h; exact .flat h4
  rw [if_neg h4] at h
  by_cases h5 : st ∈ [(chars! "WD"), (chars! "NS"), (chars! "BH")]
  · rw [if_pos h5] at h; cases h; exact .nan
  rw [if_neg h5] at h
  by_cases h6 : st ∈ [(chars! "H-rich_Core_He_depleted"), (chars! "H-rich_Core_C_depleted")]
  · rw [if_pos h6] at h
    cases hb : bevel (e.cH + e.cHe) (e.sH + e.sHe) (net st 1) (net st 2) with
    | error x => rw [hb] at h; cases h
    | ok plus => rw [hb] at h; cases h; exact .depleted hb h6
  rw [if_neg h6] at h
  by_cases h7 : st ∈ [(chars! "H-rich_Shell_H_burning"), (chars! "H-rich_Core_H_burning")]
  · rw [if_pos h7] at h
    cases hb : bevel e.cH e.sH (net st 0) (net st 1) with
    | error x => rw [hb] at h; cases h
    | ok hh => rw [hb] at h; cases h; exact .burningH hb h7
  rw [if_neg h7] at h
  cases hb : bevel e.cH e.sH (net st 0) (net st 1) with
  | error x => rw [hb] at h; cases h
  | ok hh =>
    rw [hb] at h
    dsimp only at h
    cases hp : bevel (e.cH + e.cHe) (e.sH + e.sHe) (net st 2) (net st 3) with
    | error x => rw [hp] at h; cases h
    | ok plus =>
      rw [hp] at h; cases h
      exact .burning hb hp (rest_states st (not_not.mp h0) h2 (by simpa using h3) h4 h5 h6 h7)

end Verif.ProfPred
