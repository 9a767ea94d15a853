import Verif.GridPoint
import Verif.GridJoinProps
import Mathlib.Tactic.Linarith
import Mathlib.Tactic.NormNum
import Mathlib.Tactic.Ring
import Mathlib.Tactic.FieldSimp
import Mathlib.Tactic.Positivity
import Mathlib.Data.Nat.Digits.Defs
import Mathlib.Analysis.SpecialFunctions.Pow.Real
/-!
C104: a point of a MESA grid is run with the values of its row, and the values are found again in the name of its directory and in its file.
-/
namespace Verif.GridPoint

open Verif.Frame (Name isIn split splitGo before)
open Verif.Jobs (dec decZ digitsVal join cutAt int dec_ne digit_of_mem digitsVal_dec cutAt_none cutAt_append not_mem_dec int_decZ mem_decZ)
open Verif.GridJoin (strip params field fields wanted folders walk_lit walk_val walk_sep field_of_walk fields_ok isIn_lit isIn_val isIn_here isIn_before isIn_cons
  noPre readLine readLines rename Trim Blank C85_line C85_skip C85_lines C85_folders blank)

/-! ### Numbers -/

theorem rhe_ge {x : ℚ} : ⌊x⌋.toNat ≤ rhe x := by
  unfold rhe
  dsimp only
  split_ifs <;> omega

theorem rhe_le {x : ℚ} : rhe x ≤ ⌊x⌋.toNat + 1 := by
  unfold rhe
  dsimp only
  split_ifs <;> omega

theorem floor_nat {x : ℚ} (h : 0 ≤ x) : ((⌊x⌋.toNat : ℕ) : ℚ) ≤ x ∧ x < (⌊x⌋.toNat : ℕ) + 1 := by
  have h0 : (0 : ℤ) ≤ ⌊x⌋ := Int.floor_nonneg.2 h
  have h1 : ((⌊x⌋.toNat : ℕ) : ℤ) = ⌊x⌋ := Int.toNat_of_nonneg h0
  have h2 : ((⌊x⌋.toNat : ℕ) : ℚ) = ((⌊x⌋ : ℤ) : ℚ) := by
    exact_mod_cast h1
  rw [h2]
  exact ⟨Int.floor_le x, Int.lt_floor_add_one x⟩

/-- The nearest number is at most a half away. -/
theorem rhe_err {x : ℚ} (h : 0 ≤ x) : |(rhe x : ℚ) - x| ≤ 1 / 2 := by
  obtain ⟨h1, h2⟩ := floor_nat h
  unfold rhe
  dsimp only
  by_cases hc : x - (⌊x⌋.toNat : ℕ) > 1 / 2 ∨ (x - (⌊x⌋.toNat : ℕ) = 1 / 2 ∧ ⌊x⌋.toNat % 2 = 1)
  · rw [if_pos hc, abs_le]
    push_cast
    rcases hc with hc | hc
    · constructor <;> linarith
    · constructor <;> linarith [hc.1]
  · rw [if_neg hc, abs_le]
    push Not at hc
    constructor <;> linarith [hc.1]

theorem rhe_nat (n : ℕ) : rhe (n : ℚ) = n := by
  unfold rhe
  simp

theorem length_dec {n p : ℕ} (h : n < 10 ^ (p + 1)) : (dec n).length ≤ p + 1 := by
  unfold dec
  exact Nat.toDigits_length 10 n (p + 1) (by omega) h

theorem length_pad (w : ℕ) (s : Name) : (pad w s).length = max w s.length := by
  unfold pad
  simp
  omega

theorem mem_pad {w : ℕ} {s : Name} {c : Char} (h : c ∈ pad w s) : c = '0' ∨ c ∈ s := by
  unfold pad at h
  rcases List.mem_append.1 h with h | h
  · exact Or.inl (List.eq_of_mem_replicate h)
  · exact Or.inr h

theorem digit_pad {w n : ℕ} {c : Char} (h : c ∈ pad w (dec n)) : c.isDigit = true := by
  rcases mem_pad h with rfl | h
  · decide
  · exact digit_of_mem h

theorem zeros (k : ℕ) (s : Name) : Nat.ofDigitChars 10 (List.replicate k '0' ++ s) 0 = Nat.ofDigitChars 10 s 0 := by
  induction k with
  | zero => rfl
  | succ k ih =>
    rw [List.replicate_succ, List.cons_append, Nat.ofDigitChars_cons]
    exact ih

theorem digitsVal_pad (w n : ℕ) : digitsVal (pad w (dec n)) = some n := by
  have h := digitsVal_dec n
  unfold digitsVal at h ⊢
  have h1 : dec n ≠ [] ∧ (dec n).all Char.isDigit = true := ⟨dec_ne n, List.all_eq_true.2 fun c hc => digit_of_mem hc⟩
  rw [if_pos h1] at h
  have h2 : pad w (dec n) ≠ [] ∧ (pad w (dec n)).all Char.isDigit = true :=
    ⟨by unfold pad; simp [dec_ne], List.all_eq_true.2 fun c hc => digit_pad hc⟩
  rw [if_pos h2]
  unfold pad
  rw [zeros]
  exact h

/-- Digits with a point in between. -/
theorem mantissa_split {n w k : ℕ} {s : Name} (hs : s = pad w (dec n)) :
    mantissa (s.take k ++ '.' :: s.drop k) = some ((n : ℚ) / 10 ^ (s.length - k)) := by
  have hd : ∀ c ∈ s, c.isDigit = true := fun c hc => digit_pad (hs ▸ hc)
  have n1 : '.' ∉ s.take k := fun h => by simpa using hd _ (List.mem_of_mem_take h)
  have n2 : '.' ∉ s.drop k := fun h => by simpa using hd _ (List.mem_of_mem_drop h)
  unfold mantissa
  rw [cutAt_append _ _ _ n1, cutAt_none _ _ n2]
  dsimp only
  rw [List.take_append_drop, hs, digitsVal_pad]
  simp

theorem strip_none {s : Name} (h : ∀ c ∈ s, blank c = false) : strip s = s := by
  unfold strip
  have key : ∀ t : Name, (∀ c ∈ t, blank c = false) → t.dropWhile blank = t := by
    intro t ht
    cases t with
    | nil => rfl
    | cons c t => rw [List.dropWhile_cons, ht c (by simp)]; rfl
  rw [key s h, key s.reverse (fun c hc => h c (List.mem_reverse.1 hc)), List.reverse_reverse]

theorem digit_not_blank {c : Char} (h : c.isDigit = true) : blank c = false := by
  unfold blank
  by_contra hb
  simp only [Bool.not_eq_false, Bool.or_eq_true, beq_iff_eq] at hb
  rcases hb with ((rfl | rfl) | rfl) | rfl <;> simp at h

/-- Reading a number with sign. -/
theorem float_sign {x : ℚ} {t : Name} {v : ℚ} (hb : ∀ c ∈ t, blank c = false) (ht : ∃ c r, t = c :: r ∧ c.isDigit = true) (hv : unsigned t = some v) :
    float (sign x ++ t) = some (if x < 0 then -v else v) := by
  obtain ⟨c, r, rfl, hc⟩ := ht
  unfold float sign
  by_cases hx : x < 0
  · rw [if_pos hx, if_pos hx, strip_none]
    · simp only [List.cons_append, List.nil_append]
      rw [hv]
      rfl
    · intro d hd
      rcases List.mem_append.1 hd with hd | hd
      · rw [List.mem_singleton.1 hd]; rfl
      · exact hb d hd
  · rw [if_neg hx, if_neg hx, List.nil_append, strip_none hb]
    have h1 : c ≠ '-' := by rintro rfl; simp at hc
    have h2 : c ≠ '+' := by rintro rfl; simp at hc
    split
    · rename_i heq; cases heq; exact absurd rfl h1
    · rename_i heq; cases heq; exact absurd rfl h2
    · exact hv

theorem split_chars {s : Name} {k : ℕ} {c : Char} (hs : ∀ c ∈ s, c.isDigit = true) (h : c ∈ s.take k ++ '.' :: s.drop k) : c = '.' ∨ c.isDigit = true := by
  rcases List.mem_append.1 h with h | h
  · exact Or.inr (hs _ (List.mem_of_mem_take h))
  · rcases List.mem_cons.1 h with h | h
    · exact Or.inl h
    · exact Or.inr (hs _ (List.mem_of_mem_drop h))

theorem split_head {s : Name} {k : ℕ} (hs : ∀ c ∈ s, c.isDigit = true) (hk : 0 < k) (hl : s ≠ []) :
    ∃ c r, s.take k ++ '.' :: s.drop k = c :: r ∧ c.isDigit = true := by
  cases s with
  | nil => exact absurd rfl hl
  | cons c t =>
    obtain ⟨j, rfl⟩ : ∃ j, k = j + 1 := ⟨k - 1, by omega⟩
    exact ⟨c, _, rfl, hs c (by simp)⟩

/-- What `'{:.pf}'` shows. -/
def shownF (p : ℕ) (x : ℚ) : ℚ := (if x < 0 then -1 else 1) * ((rhe (|x| * 10 ^ p) : ℚ) / 10 ^ p)

/-- What `'{:.pe}'` shows. -/
def shownE (p : ℕ) (x : ℚ) : ℚ := (if x < 0 then -1 else 1) * (((sci p |x|).1 : ℚ) / 10 ^ p * (10 : ℚ) ^ (sci p |x|).2)

/-- **C104** A number written with a fixed number of decimals is read as the number shown. -/
theorem C104_fixed_read (p : ℕ) (x : ℚ) : float (fmtF p x) = some (shownF p x) := by
  unfold fmtF
  dsimp only
  generalize hs : pad (p + 1) (dec (rhe (|x| * 10 ^ p))) = s
  have hd : ∀ c ∈ s, c.isDigit = true := fun c hc => digit_pad (hs ▸ hc)
  have hl : p + 1 ≤ s.length := by rw [← hs, length_pad]; omega
  have hne : s ≠ [] := by rintro rfl; simp at hl
  have hb : ∀ c ∈ s.take (s.length - p) ++ '.' :: s.drop (s.length - p), blank c = false := by
    intro c hc
    rcases split_chars hd hc with rfl | h
    · rfl
    · exact digit_not_blank h
  have he : 'e' ∉ s.take (s.length - p) ++ '.' :: s.drop (s.length - p) := fun h => by
    rcases split_chars hd h with h | h <;> simp at h
  have hu : unsigned (s.take (s.length - p) ++ '.' :: s.drop (s.length - p)) = some ((rhe (|x| * 10 ^ p) : ℚ) / 10 ^ p) := by
    unfold unsigned
    rw [cutAt_none _ _ he]
    dsimp only
    rw [mantissa_split hs.symm, show s.length - (s.length - p) = p by omega]
  rw [float_sign hb (split_head hd (by omega) hne) hu]
  unfold shownF
  split_ifs <;> simp

/-- **C104** With decimals the number shown is within half a unit of the last. -/
theorem C104_fixed (p : ℕ) (x : ℚ) : |shownF p x - x| ≤ 1 / 2 / 10 ^ p := by
  have h := rhe_err (x := |x| * 10 ^ p) (by positivity)
  have h10 : (0 : ℚ) < 10 ^ p := by positivity
  have key : |(rhe (|x| * 10 ^ p) : ℚ) / 10 ^ p - (|x|)| ≤ 1 / 2 / 10 ^ p := by
    rw [show (rhe (|x| * 10 ^ p) : ℚ) / 10 ^ p - (|x|) = ((rhe (|x| * 10 ^ p) : ℚ) - |x| * 10 ^ p) / 10 ^ p by field_simp, abs_div, abs_of_pos h10]
    gcongr
  unfold shownF
  by_cases hx : x < 0
  · rw [if_pos hx]
    rw [abs_of_neg hx] at key ⊢
    rw [← abs_neg]
    refine le_trans (le_of_eq ?_) key
    congr 1
    ring
  · rw [if_neg hx]
    rw [abs_of_nonneg (not_lt.1 hx)] at key ⊢
    simpa using key

theorem sci_pos {x : ℚ} (hx : 0 < x) (p : ℕ) :
    10 ^ p ≤ (sci p x).1 ∧ (sci p x).1 < 10 ^ (p + 1) ∧ |((sci p x).1 : ℚ) / 10 ^ p * (10 : ℚ) ^ (sci p x).2 - x| ≤ 1 / 2 * (10 : ℚ) ^ (Int.log 10 x - p) := by
  have hE : (0 : ℚ) < (10 : ℚ) ^ (Int.log 10 x - p) := by positivity
  have lo : (10 : ℚ) ^ Int.log 10 x ≤ x := by
    have := Int.zpow_log_le_self (b := 10) (by norm_num) hx
    simpa using this
  have hi : x < (10 : ℚ) ^ (Int.log 10 x + 1) := by
    have := Int.lt_zpow_succ_log_self (b := 10) (by norm_num) x
    simpa using this
  have e1 : (10 : ℚ) ^ Int.log 10 x = 10 ^ p * (10 : ℚ) ^ (Int.log 10 x - p) := by
    rw [← zpow_natCast (10 : ℚ) p, ← zpow_add₀ (by norm_num)]
    congr 1
    ring
  have e2 : (10 : ℚ) ^ (Int.log 10 x + 1) = 10 ^ (p + 1) * (10 : ℚ) ^ (Int.log 10 x - p) := by
    rw [← zpow_natCast (10 : ℚ) (p + 1), ← zpow_add₀ (by norm_num)]
    congr 1
    push_cast
    ring
  set y := x / (10 : ℚ) ^ (Int.log 10 x - p) with hy
  have y0 : 0 ≤ y := by positivity
  have y1 : (10 : ℚ) ^ p ≤ y := by
    rw [hy, le_div_iff₀ hE, ← e1]
    exact lo
  have y2 : y < (10 : ℚ) ^ (p + 1) := by
    rw [hy, div_lt_iff₀ hE, ← e2]
    exact hi
  have m1 : 10 ^ p ≤ rhe y := by
    refine le_trans ?_ rhe_ge
    have : (10 ^ p : ℤ) ≤ ⌊y⌋ := Int.le_floor.2 (by push_cast; exact y1)
    have h0 : (0 : ℤ) ≤ ⌊y⌋ := Int.floor_nonneg.2 y0
    zify
    rw [Int.toNat_of_nonneg h0]
    exact this
  have m2 : rhe y ≤ 10 ^ (p + 1) := by
    refine le_trans rhe_le ?_
    have : ⌊y⌋ < (10 ^ (p + 1) : ℤ) := Int.floor_lt.2 (by push_cast; exact y2)
    have h0 : (0 : ℤ) ≤ ⌊y⌋ := Int.floor_nonneg.2 y0
    zify
    rw [Int.toNat_of_nonneg h0]
    omega
  have err : |(rhe y : ℚ) * (10 : ℚ) ^ (Int.log 10 x - p) - x| ≤ 1 / 2 * (10 : ℚ) ^ (Int.log 10 x - p) := by
    have hx' : x = y * (10 : ℚ) ^ (Int.log 10 x - p) := by rw [hy]; field_simp
    calc |(rhe y : ℚ) * (10 : ℚ) ^ (Int.log 10 x - p) - x| = |(rhe y : ℚ) - y| * (10 : ℚ) ^ (Int.log 10 x - p) := by
          conv_lhs => rw [show (rhe y : ℚ) * (10 : ℚ) ^ (Int.log 10 x - p) - x = ((rhe y : ℚ) - y) * (10 : ℚ) ^ (Int.log 10 x - p) by
            rw [sub_mul, ← hx']]
          rw [abs_mul, abs_of_pos hE]
      _ ≤ _ := by gcongr; exact rhe_err y0
  have back : ∀ (m : ℚ) (e : ℤ), m / 10 ^ p * (10 : ℚ) ^ e = m * (10 : ℚ) ^ (e - p) := by
    intro m e
    rw [zpow_sub₀ (by norm_num), zpow_natCast]
    ring
  unfold sci
  rw [if_neg hx.ne']
  dsimp only
  rw [← hy]
  by_cases hm : rhe y = 10 ^ (p + 1)
  · rw [if_pos hm]
    dsimp only
    refine ⟨le_rfl, Nat.pow_lt_pow_right (by norm_num) (by omega), ?_⟩
    rw [hm] at err
    refine le_trans (le_of_eq ?_) err
    congr 2
    rw [back]
    push_cast
    rw [pow_succ, show Int.log 10 x + 1 - (p : ℤ) = (Int.log 10 x - p) + 1 by ring, zpow_add_one₀ (by norm_num)]
    ring
  · rw [if_neg hm]
    dsimp only
    refine ⟨m1, by omega, ?_⟩
    rw [back]
    exact err

theorem sci_lt (p : ℕ) {x : ℚ} (hx : 0 ≤ x) : (sci p x).1 < 10 ^ (p + 1) := by
  rcases hx.eq_or_lt with h | h
  · rw [← h]
    unfold sci
    simp
  · exact (sci_pos h p).2.1

theorem mantE_read (p : ℕ) (x : ℚ) : unsigned (let s := pad (p + 1) (dec (sci p |x|).1); s.take 1 ++ '.' :: s.drop 1) = some (((sci p |x|).1 : ℚ) / 10 ^ p) ∧
    (pad (p + 1) (dec (sci p |x|).1)).length = p + 1 := by
  have hl : (pad (p + 1) (dec (sci p |x|).1)).length = p + 1 := by
    rw [length_pad, max_eq_left]
    exact length_dec (sci_lt p (abs_nonneg x))
  refine ⟨?_, hl⟩
  dsimp only
  generalize hs : pad (p + 1) (dec (sci p |x|).1) = s at *
  have hd : ∀ c ∈ s, c.isDigit = true := fun c hc => digit_pad (hs ▸ hc)
  have he : 'e' ∉ s.take 1 ++ '.' :: s.drop 1 := fun h => by
    rcases split_chars hd h with h | h <;> simp at h
  unfold unsigned
  rw [cutAt_none _ _ he]
  dsimp only
  rw [mantissa_split hs.symm, hl]
  rfl

theorem mantE_float (p : ℕ) (x : ℚ) : float (mantE p x) = some ((if x < 0 then -1 else 1) * (((sci p |x|).1 : ℚ) / 10 ^ p)) := by
  obtain ⟨h1, h2⟩ := mantE_read p x
  unfold mantE
  dsimp only at h1 ⊢
  generalize hs : pad (p + 1) (dec (sci p |x|).1) = s at *
  have hd : ∀ c ∈ s, c.isDigit = true := fun c hc => digit_pad (hs ▸ hc)
  have hb : ∀ c ∈ s.take 1 ++ '.' :: s.drop 1, blank c = false := by
    intro c hc
    rcases split_chars hd hc with rfl | h
    · rfl
    · exact digit_not_blank h
  rw [float_sign hb (split_head hd (by omega) (by rintro rfl; simp at h2)) h1]
  split_ifs <;> simp

theorem int_exp (p : ℕ) (x : ℚ) : int (expE p x) = some (sci p |x|).2 := by
  unfold expE
  dsimp only
  generalize (sci p |x|).2 = e
  have hst : ∀ c : Char, Jobs.isSpace c = false → Jobs.strip (c :: pad 2 (dec e.natAbs)) = c :: pad 2 (dec e.natAbs) := fun c hc =>
    Jobs.strip_none fun d hd => by
      rcases List.mem_cons.1 hd with rfl | hd
      · exact hc
      · exact Jobs.space_not_digit (digit_pad hd)
  unfold int
  by_cases he : e < 0
  · rw [if_pos he, hst _ (by decide)]
    show (digitsVal (pad 2 (dec e.natAbs))).map _ = _
    rw [digitsVal_pad]
    simp only [Option.map_some, Option.some.injEq]
    omega
  · rw [if_neg he, hst _ (by decide)]
    show (digitsVal (pad 2 (dec e.natAbs))).map _ = _
    rw [digitsVal_pad]
    simp only [Option.map_some, Option.some.injEq]
    omega

theorem float_exp (p : ℕ) (x : ℚ) : float (expE p x) = some ((sci p |x|).2 : ℚ) := by
  unfold expE
  dsimp only
  generalize (sci p |x|).2 = e
  have hst : ∀ c : Char, blank c = false → strip (c :: pad 2 (dec e.natAbs)) = c :: pad 2 (dec e.natAbs) := fun c hc =>
    strip_none fun d hd => by
      rcases List.mem_cons.1 hd with rfl | hd
      · exact hc
      · exact digit_not_blank (digit_pad hd)
  have hu : unsigned (pad 2 (dec e.natAbs)) = some ((e.natAbs : ℕ) : ℚ) := by
    have hd : ∀ c ∈ pad 2 (dec e.natAbs), c.isDigit = true := fun c hc => digit_pad hc
    unfold unsigned
    rw [cutAt_none _ _ (fun h => by simpa using hd _ h)]
    dsimp only
    unfold mantissa
    rw [cutAt_none _ _ (fun h => by simpa using hd _ h)]
    dsimp only
    rw [digitsVal_pad]
    rfl
  unfold float
  by_cases he : e < 0
  · rw [if_pos he, hst _ (by decide)]
    show (unsigned (pad 2 (dec e.natAbs))).map _ = _
    rw [hu]
    simp only [Option.map_some, Option.some.injEq]
    have : ((e.natAbs : ℕ) : ℤ) = -e := by omega
    have h2 : ((e.natAbs : ℕ) : ℚ) = ((-e : ℤ) : ℚ) := by rw [← this]; simp
    rw [h2]
    simp
  · rw [if_neg he, hst _ (by decide)]
    show unsigned (pad 2 (dec e.natAbs)) = _
    rw [hu]
    simp only [Option.some.injEq]
    have : ((e.natAbs : ℕ) : ℤ) = e := by omega
    have h2 : ((e.natAbs : ℕ) : ℚ) = ((e : ℤ) : ℚ) := by
      conv_rhs => rw [← this]
      simp
    exact h2

/-- **C104** A number written with a power of ten is read as the number shown. -/
theorem C104_power_read (p : ℕ) (x : ℚ) : float (fmtE p x) = some (shownE p x) := by
  obtain ⟨h1, h2⟩ := mantE_read p x
  unfold fmtE mantE
  dsimp only at h1 ⊢
  have hi := int_exp p x
  have hed : ∀ c ∈ expE p x, c = '-' ∨ c = '+' ∨ c.isDigit = true := by
    intro c hc
    unfold expE at hc
    dsimp only at hc
    rcases List.mem_cons.1 hc with rfl | hc
    · split_ifs <;> simp
    · exact Or.inr (Or.inr (digit_pad hc))
  generalize hs : pad (p + 1) (dec (sci p |x|).1) = s at *
  have hd : ∀ c ∈ s, c.isDigit = true := fun c hc => digit_pad (hs ▸ hc)
  have he : 'e' ∉ s.take 1 ++ '.' :: s.drop 1 := fun h => by
    rcases split_chars hd h with h | h <;> simp at h
  have he' : 'e' ∉ expE p x := fun h => by
    rcases hed _ h with h | h | h <;> simp at h
  have hb : ∀ c ∈ (s.take 1 ++ '.' :: s.drop 1) ++ 'e' :: expE p x, blank c = false := by
    intro c hc
    rcases List.mem_append.1 hc with hc | hc
    · rcases split_chars hd hc with rfl | h
      · rfl
      · exact digit_not_blank h
    · rcases List.mem_cons.1 hc with rfl | hc
      · rfl
      · rcases hed _ hc with rfl | rfl | h
        · rfl
        · rfl
        · exact digit_not_blank h
  have hm : mantissa (s.take 1 ++ '.' :: s.drop 1) = some (((sci p |x|).1 : ℚ) / 10 ^ p) := by
    rw [mantissa_split hs.symm, h2]
    rfl
  have hu : unsigned ((s.take 1 ++ '.' :: s.drop 1) ++ 'e' :: expE p x) = some (((sci p |x|).1 : ℚ) / 10 ^ p * (10 : ℚ) ^ (sci p |x|).2) := by
    unfold unsigned
    rw [cutAt_append _ _ _ he, cutAt_none _ _ he']
    dsimp only
    rw [hm, hi]
  have hh : ∃ c r, (s.take 1 ++ '.' :: s.drop 1) ++ 'e' :: expE p x = c :: r ∧ c.isDigit = true := by
    obtain ⟨c, r, h3, h4⟩ := split_head (k := 1) hd (by omega) (by rintro rfl; simp at h2)
    exact ⟨c, r ++ 'e' :: expE p x, by rw [h3]; rfl, h4⟩
  rw [List.append_assoc, float_sign hb hh hu]
  unfold shownE
  split_ifs <;> simp

/-- **C104** With a power of ten the number shown is within half a unit of the last digit, relative to the number. -/
theorem C104_power (p : ℕ) (x : ℚ) : |shownE p x - x| ≤ 1 / 2 / 10 ^ p * |x| := by
  rcases eq_or_ne x 0 with rfl | hx
  · unfold shownE sci
    simp
  · have hx' : 0 < |x| := abs_pos.2 hx
    obtain ⟨-, -, h⟩ := sci_pos hx' p
    have lo : (10 : ℚ) ^ Int.log 10 |x| ≤ |x| := by
      have := Int.zpow_log_le_self (b := 10) (by norm_num) hx'
      simpa using this
    have e1 : (1 / 2 : ℚ) * (10 : ℚ) ^ (Int.log 10 |x| - p) ≤ 1 / 2 / 10 ^ p * |x| := by
      rw [zpow_sub₀ (by norm_num), zpow_natCast, show (1 / 2 : ℚ) * ((10 : ℚ) ^ Int.log 10 |x| / 10 ^ p) = 1 / 2 / 10 ^ p * (10 : ℚ) ^ Int.log 10 |x| by ring]
      gcongr
    have key := h.trans e1
    unfold shownE
    by_cases hn : x < 0
    · rw [if_pos hn, ← abs_neg]
      refine le_trans (le_of_eq ?_) key
      rw [abs_of_neg hn]
      congr 1
      ring
    · rw [if_neg hn, one_mul]
      refine le_trans (le_of_eq ?_) key
      rw [abs_of_nonneg (not_lt.1 hn)]

example : fmtF 4 (12345678 / 1000000) = (chars! "12.3457") ∧ fmtF 4 (-1 / 100) = (chars! "-0.0100") := by decide +kernel

/-! ### Names of directories -/

/-- Parameters of a name, with their values as text. -/
def body (es : List (Name × Name)) : Name := join '_' (es.map entry)

theorem body_cons (e f : Name × Name) (es : List (Name × Name)) : body (e :: f :: es) = entry e ++ '_' :: body (f :: es) := rfl

theorem body_append : ∀ (a b : List (Name × Name)), a ≠ [] → b ≠ [] → body (a ++ b) = body a ++ '_' :: body b
  | [], _, h, _ => absurd rfl h
  | [_], [], _, h => absurd rfl h
  | [_], _ :: _, _, _ => rfl
  | e :: f :: a, b, _, hb => by
    rw [List.cons_append, List.cons_append, body_cons, ← List.cons_append, body_append (f :: a) b (by simp) hb, body_cons]
    simp

theorem noPre_us {x : Char} {sep : Name} (hx : x ≠ '_') : noPre (x :: sep) ['_'] = true := by
  have h : ('_' == x) = false := by simpa using fun hh => hx hh.symm
  have h' : (x == '_') = false := by simpa using hx
  simp [noPre, GridJoin.compat, List.isPrefixOf, h, h']

/-- `sep` does not begin in a parameter before the one looked for. -/
def Before (x : Char) (sep : Name) (e : Name × Name) : Prop := noPre (x :: sep) (e.1 ++ ['_']) = true ∧ x ∉ e.2

theorem walk_body (x : Char) (sep : Name) (hx : x ≠ '_') (e : Name × Name) (post : List (Name × Name)) (tail : Name) :
    ∀ (pre : List (Name × Name)) (cur : Name), (∀ p ∈ pre, Before x sep p) →
      ∃ cur', splitGo (x :: sep) 0 cur (body (pre ++ e :: post) ++ tail) = splitGo (x :: sep) 0 cur' (body (e :: post) ++ tail)
  | [], cur, _ => ⟨cur, rfl⟩
  | p :: pre, cur, h => by
    obtain ⟨h1, h2⟩ := h p (by simp)
    obtain ⟨cur', hc⟩ := walk_body x sep hx e post tail pre (['_'].reverse ++ (p.2.reverse ++ ((p.1 ++ ['_']).reverse ++ cur))) fun q hq => h q (by simp [hq])
    refine ⟨cur', ?_⟩
    rw [← hc]
    have hb : body (p :: pre ++ e :: post) = (p.1 ++ ['_']) ++ (p.2 ++ (['_'] ++ body (pre ++ e :: post))) := by
      cases pre <;> simp [body_cons, entry]
    rw [hb, List.append_assoc, walk_lit _ _ _ _ h1, List.append_assoc, walk_val _ _ _ _ _ h2, List.append_assoc, walk_lit _ _ _ _ (noPre_us hx)]

theorem field_body (x : Char) (name : Name) (hx : x ≠ '_') (v : Name) (pre post : List (Name × Name)) (tail : Name)
    (h : ∀ p ∈ pre, Before x (name ++ ['_']) p) (hv : '_' ∉ v) (hv' : x ∉ v) (ht : tail = [] ∨ ∃ r, tail = '_' :: r) :
    field (body (pre ++ (x :: name, v) :: post) ++ tail) (x :: name) = .ok v := by
  obtain ⟨cur, hc⟩ := walk_body x (name ++ ['_']) hx (x :: name, v) post tail pre [] h
  have hb : ∃ rest, body ((x :: name, v) :: post) ++ tail = (x :: (name ++ ['_'])) ++ (v ++ rest) ∧ (rest = [] ∨ ∃ r, rest = '_' :: r) := by
    cases post with
    | nil => exact ⟨tail, by simp [body, join, entry], ht⟩
    | cons f post => exact ⟨'_' :: body (f :: post) ++ tail, by simp [body_cons, entry], Or.inr ⟨_, rfl⟩⟩
  obtain ⟨rest, h1, h2⟩ := hb
  refine field_of_walk x name _ cur.reverse v rest ?_ hv hv' h2
  refine hc.trans ?_
  rw [h1]
  exact walk_sep x (name ++ ['_']) cur _

theorem isIn_body (x : Char) (p : Name) (hx : x ≠ '_') (tail : Name) : ∀ es : List (Name × Name), (∀ e ∈ es, noPre (x :: p) (e.1 ++ ['_']) = true ∧ x ∉ e.2) →
    isIn (x :: p) (body es ++ tail) = isIn (x :: p) tail
  | [], _ => rfl
  | [e], h => by
    obtain ⟨h1, h2⟩ := h e (by simp)
    rw [show body [e] ++ tail = (e.1 ++ ['_']) ++ (e.2 ++ tail) by simp [body, join, entry], isIn_lit _ _ _ h1, isIn_val _ _ _ _ h2]
  | e :: f :: es, h => by
    obtain ⟨h1, h2⟩ := h e (by simp)
    rw [show body (e :: f :: es) ++ tail = (e.1 ++ ['_']) ++ (e.2 ++ (['_'] ++ (body (f :: es) ++ tail))) by simp [body_cons, entry], isIn_lit _ _ _ h1,
      isIn_val _ _ _ _ h2, isIn_lit _ _ _ (noPre_us hx)]
    exact isIn_body x p hx tail (f :: es) fun q hq => h q (by simp [hq])

theorem isIn_key (k v : Name) (tail : Name) : ∀ es : List (Name × Name), (k, v) ∈ es → isIn k (body es ++ tail) = true
  | [], h => by simp at h
  | [e], h => by
    rw [← List.mem_singleton.1 h, show body [(k, v)] ++ tail = k ++ ('_' :: (v ++ tail)) by simp [body, join, entry]]
    exact isIn_here _ _
  | e :: f :: es, h => by
    rcases List.mem_cons.1 h with rfl | h
    · rw [show body ((k, v) :: f :: es) ++ tail = k ++ ('_' :: (v ++ '_' :: (body (f :: es) ++ tail))) by simp [body_cons, entry]]
      exact isIn_here _ _
    · rw [show body (e :: f :: es) ++ tail = (entry e ++ ['_']) ++ (body (f :: es) ++ tail) by simp [body_cons]]
      exact isIn_before _ _ _ (isIn_key k v tail (f :: es) h)

/-- The names that are looked for. -/
def names : List Name := [(chars! "m1"), (chars! "m2"), (chars! "initial_period_in_days"), (chars! "initial_z"), (chars! "initial_eccentricity")]

/-- Another name, which does not contain one that is looked for. -/
def Tame (k : Name) : Bool := (names.all fun w => noPre (w ++ ['_']) (k ++ ['_'])) && noPre (chars! "initial_mass") (k ++ ['_']) &&
  noPre (chars! "initial_eccentricity") (k ++ ['_']) && k.all fun c => !paren c

theorem names_apart : ∀ k ∈ names, (∀ w ∈ names, w ≠ k → noPre (w ++ ['_']) (k ++ ['_']) = true) ∧ noPre (chars! "initial_mass") (k ++ ['_']) = true ∧
    (k ≠ (chars! "initial_eccentricity") → noPre (chars! "initial_eccentricity") (k ++ ['_']) = true) ∧ (k.all fun c => !paren c) = true := by decide +kernel

/-- Signs of numbers. -/
def Sign (c : Char) : Prop := c.isDigit = true ∨ c = '.' ∨ c = '-' ∨ c = '+' ∨ c = 'e'

theorem sign_ne {c d : Char} (h : Sign c) (hd : ¬ Sign d) : c ≠ d := by
  rintro rfl
  exact hd h

theorem sign_sign {x : ℚ} {c : Char} (h : c ∈ sign x) : Sign c := by
  unfold sign at h
  split_ifs at h
  · rw [List.mem_singleton.1 h]
    simp [Sign]
  · simp at h

theorem fmtF_sign (p : ℕ) (x : ℚ) : ∀ c ∈ fmtF p x, Sign c := by
  intro c hc
  unfold fmtF at hc
  dsimp only at hc
  rcases List.mem_append.1 hc with hc | hc
  · exact sign_sign hc
  · rcases split_chars (fun c hc => digit_pad hc) hc with h | h
    · exact Or.inr (Or.inl h)
    · exact Or.inl h

theorem mantE_sign (p : ℕ) (x : ℚ) : ∀ c ∈ mantE p x, c.isDigit = true ∨ c = '.' ∨ c = '-' := by
  intro c hc
  unfold mantE at hc
  dsimp only at hc
  rcases List.mem_append.1 hc with hc | hc
  · unfold sign at hc
    split_ifs at hc
    · exact Or.inr (Or.inr (List.mem_singleton.1 hc))
    · simp at hc
  · rcases split_chars (fun c hc => digit_pad hc) hc with h | h
    · exact Or.inr (Or.inl h)
    · exact Or.inl h

theorem expE_sign (p : ℕ) (x : ℚ) : ∀ c ∈ expE p x, c.isDigit = true ∨ c = '+' ∨ c = '-' := by
  intro c hc
  unfold expE at hc
  dsimp only at hc
  rcases List.mem_cons.1 hc with rfl | hc
  · split_ifs <;> simp
  · exact Or.inl (digit_pad hc)

theorem fmtE_sign (p : ℕ) (x : ℚ) : ∀ c ∈ fmtE p x, Sign c := by
  intro c hc
  unfold fmtE at hc
  rcases List.mem_append.1 hc with hc | hc
  · rcases mantE_sign p x c hc with h | h | h <;> simp [Sign, h]
  · rcases List.mem_cons.1 hc with rfl | hc
    · simp [Sign]
    · rcases expE_sign p x c hc with h | h | h <;> simp [Sign, h]

/-- The text of a parameter. -/
def shown (p : Name × ℚ) : Name × Name := (p.1, if logged.contains p.1 then fmtE 4 p.2 else fmtF 4 p.2)

theorem shown_sign (p : Name × ℚ) : ∀ c ∈ (shown p).2, Sign c := by
  unfold shown
  dsimp only
  split_ifs
  · exact fmtE_sign 4 p.2
  · exact fmtF_sign 4 p.2

/-- The parameters of the name in their order. -/
def arranged (ps : List (Name × ℚ)) : List (Name × ℚ) := (ps.filter fun p => !logged.contains p.1) ++ ps.filter fun p => logged.contains p.1

theorem mem_arranged {ps : List (Name × ℚ)} {p : Name × ℚ} : p ∈ arranged ps ↔ p ∈ ps := by
  unfold arranged
  rw [List.mem_append, List.mem_filter, List.mem_filter]
  cases logged.contains p.1 <;> simp

theorem dirName_eq {ps : List (Name × ℚ)} (idx : Option ℕ) (dyn : Option Name) (hp : ∀ p ∈ ps, (p.1.all fun c => !paren c) = true)
    (h1 : ∃ p ∈ ps, logged.contains p.1 = false) (h2 : ∃ p ∈ ps, logged.contains p.1 = true) :
    dirName ps idx dyn = body ((arranged ps).map shown) ++ ending idx dyn := by
  unfold dirName arranged
  dsimp only
  have ha : ((ps.filter fun p => !logged.contains p.1).map fun p => entry (p.1, fmtF 4 p.2)) =
      ((ps.filter fun p => !logged.contains p.1).map shown).map entry := by
    rw [List.map_map]
    refine List.map_congr_left fun p hp => ?_
    have := (List.mem_filter.1 hp).2
    simp only [Bool.not_eq_true'] at this
    rw [Function.comp, shown, if_neg (by rw [this]; simp)]
  have hb : ((ps.filter fun p => logged.contains p.1).map fun p => entry (p.1, fmtE 4 p.2)) =
      ((ps.filter fun p => logged.contains p.1).map shown).map entry := by
    rw [List.map_map]
    refine List.map_congr_left fun p hp => ?_
    have := (List.mem_filter.1 hp).2
    rw [Function.comp, shown, if_pos this]
  rw [ha, hb, List.map_append, body_append, List.filter_eq_self.2]
  · unfold body
    simp
  · intro c hc
    rcases Jobs.mem_join hc with rfl | ⟨t, ht, hc⟩
    · rfl
    · obtain ⟨e, he, rfl⟩ := List.mem_map.1 ht
      obtain ⟨p, hp', rfl⟩ := List.mem_map.1 he
      unfold entry at hc
      rcases List.mem_append.1 hc with hc | hc
      · exact List.all_eq_true.1 (hp p (List.mem_filter.1 hp').1) c hc
      · rcases List.mem_cons.1 hc with rfl | hc
        · rfl
        · have hs := shown_sign p c hc
          have n1 : c ≠ '(' := sign_ne hs (by simp [Sign])
          have n2 : c ≠ ')' := sign_ne hs (by simp [Sign])
          simp [paren, n1, n2]
  · obtain ⟨p, h3, h4⟩ := h1
    intro hn
    have : p ∈ ps.filter fun p => !logged.contains p.1 := List.mem_filter.2 ⟨h3, by rw [h4]; rfl⟩
    rw [List.map_eq_nil_iff.1 hn] at this
    simp at this
  · obtain ⟨p, h3, h4⟩ := h2
    intro hn
    have : p ∈ ps.filter fun p => logged.contains p.1 := List.mem_filter.2 ⟨h3, h4⟩
    rw [List.map_eq_nil_iff.1 hn] at this
    simp at this

/-- Random text of capitals and digits. -/
def Rand (dyn : Option Name) : Prop := ∀ r ∈ dyn, ∀ c ∈ r, c ≠ 'm' ∧ c ≠ 'i'

theorem ending_start (idx : Option ℕ) (dyn : Option Name) : ending idx dyn = [] ∨ ∃ r, ending idx dyn = '_' :: r := by
  unfold ending
  cases idx with
  | some i => exact Or.inr ⟨_, rfl⟩
  | none =>
    cases dyn with
    | none => exact Or.inl rfl
    | some r => exact Or.inr ⟨_, rfl⟩

theorem isIn_ending (idx : Option ℕ) {dyn : Option Name} (hd : Rand dyn) (p : Name) (hp : noPre ('i' :: p) (chars! "_grid_index_") = true) :
    isIn ('i' :: p) (ending idx dyn) = false := by
  have hz : isIn ('i' :: p) [] = false := rfl
  have hr : isIn ('i' :: p) (ending none dyn) = false := by
    cases dyn with
    | none => exact hz
    | some r =>
      rw [show ending none (some r) = ['_'] ++ (r ++ []) by simp [ending], isIn_lit _ _ _ (noPre_us (by decide)),
        isIn_val _ _ _ _ (fun h => (hd r rfl _ h).2 rfl), hz]
  cases idx with
  | none => exact hr
  | some i =>
    rw [show ending (some i) dyn = (chars! "_grid_index_") ++ (dec i ++ ending none dyn) by simp [ending], isIn_lit _ _ _ hp,
      isIn_val _ _ _ _ (not_mem_dec (by decide) i)]
    exact hr

/-- Keys of a grid of binaries: names that are looked for, or names that do not contain them. -/
def Keys (ps : List (Name × ℚ)) : Prop := (ps.map (·.1)).Nodup ∧ ∀ p ∈ ps, p.1 ∈ names ∨ Tame p.1 = true

theorem Keys.paren {ps : List (Name × ℚ)} (h : Keys ps) : ∀ p ∈ ps, (p.1.all fun c => !paren c) = true := by
  intro p hp
  rcases h.2 p hp with hk | hk
  · exact (names_apart _ hk).2.2.2
  · unfold Tame at hk
    simp only [Bool.and_eq_true] at hk
    exact hk.2

theorem Keys.unique {ps : List (Name × ℚ)} (h : Keys ps) {k : Name} {x y : ℚ} (hx : (k, x) ∈ ps) (hy : (k, y) ∈ ps) : x = y := by
  have := List.inj_on_of_nodup_map h.1 hx hy rfl
  simpa using this

/-- The value of a name that is looked for. -/
theorem field_dir {ps : List (Name × ℚ)} (h : Keys ps) (tail : Name) (ht : tail = [] ∨ ∃ r, tail = '_' :: r) {k : Name} {x : ℚ} (hk : k ∈ names) (hx : (k, x) ∈ ps) :
    field (body ((arranged ps).map shown) ++ tail) k = .ok (shown (k, x)).2 := by
  obtain ⟨c, n, hc, hc'⟩ : ∃ c n, k = c :: n ∧ (c = 'm' ∨ c = 'i') := by
    simp only [names, List.mem_cons, List.not_mem_nil, or_false] at hk
    rcases hk with rfl | rfl | rfl | rfl | rfl
    exacts [⟨_, _, rfl, Or.inl rfl⟩, ⟨_, _, rfl, Or.inl rfl⟩, ⟨_, _, rfl, Or.inr rfl⟩, ⟨_, _, rfl, Or.inr rfl⟩, ⟨_, _, rfl, Or.inr rfl⟩]
  have hcs : ¬ Sign c := by rcases hc' with rfl | rfl <;> simp [Sign]
  obtain ⟨a, b, hab⟩ := List.append_of_mem (mem_arranged.2 hx)
  have hnd : ((arranged ps).map (·.1)).Nodup := by
    have hperm : (arranged ps).Perm ps := by
      unfold arranged
      refine (List.perm_append_comm).trans ?_
      exact List.filter_append_perm (fun p : Name × ℚ => logged.contains p.1) ps
    exact (hperm.map _).nodup_iff.2 h.1
  rw [hab, List.map_append, List.map_cons, show shown (k, x) = (k, (shown (k, x)).2) from rfl, hc]
  refine field_body c n (by rintro rfl; rcases hc' with h | h <;> simp at h) _ _ _ tail ?_ ?_ ?_ ht
  · intro q hq
    obtain ⟨p, hp, rfl⟩ := List.mem_map.1 hq
    have hpp : p ∈ ps := mem_arranged.1 (hab ▸ List.mem_append_left _ hp)
    have hne : p.1 ≠ k := by
      intro he
      rw [hab, List.map_append, List.map_cons] at hnd
      exact (List.nodup_append.1 hnd).2.2 p.1 (List.mem_map_of_mem hp) k (by simp) he
    refine ⟨?_, fun hh => hcs (shown_sign p c hh)⟩
    show noPre (c :: (n ++ ['_'])) (p.1 ++ ['_']) = true
    rw [show c :: (n ++ ['_']) = k ++ ['_'] by rw [hc]; rfl]
    rcases h.2 p hpp with hp' | hp'
    · exact (names_apart _ hp').1 k hk (fun he => hne he.symm)
    · unfold Tame at hp'
      simp only [Bool.and_eq_true, List.all_eq_true] at hp'
      exact hp'.1.1.1 k hk
  · intro hh
    exact absurd (shown_sign _ _ hh) (by simp [Sign])
  · intro hh
    exact hcs (shown_sign _ _ hh)

/-- **C104** The masses, the period, the metallicity and the eccentricity of a grid point are found again in the name of its directory, as they are
written there, in whatever order the columns are and whatever other parameters there are; in a directory of the first version the metallicity
is left out. -/
theorem C104_directory {ps : List (Name × ℚ)} (h : Keys ps) (idx : Option ℕ) {dyn : Option Name} (hd : Rand dyn) {m1 m2 P z : ℚ}
    (h1 : ((chars! "m1"), m1) ∈ ps) (h2 : ((chars! "m2"), m2) ∈ ps) (h3 : ((chars! "initial_period_in_days"), P) ∈ ps) (h4 : ((chars! "initial_z"), z) ∈ ps) :
    ((∀ p ∈ ps, p.1 ≠ (chars! "initial_eccentricity")) → params false (dirName ps idx dyn) = .ok [fmtF 4 m1, fmtF 4 m2, fmtE 4 P, fmtE 4 z]) ∧
    (∀ e, ((chars! "initial_eccentricity"), e) ∈ ps → params false (dirName ps idx dyn) = .ok [fmtF 4 m1, fmtF 4 m2, fmtE 4 P, fmtE 4 z, fmtF 4 e]) ∧
    params true (dirName ps idx dyn) = .ok [fmtF 4 m1, fmtF 4 m2, fmtE 4 P] := by
  have hD : dirName ps idx dyn = body ((arranged ps).map shown) ++ ending idx dyn :=
    dirName_eq idx dyn h.paren ⟨_, h1, show logged.contains (chars! "m1") = false by decide⟩ ⟨_, h4, show logged.contains (chars! "initial_z") = true by decide⟩
  have ht := ending_start idx dyn
  have hf : ∀ (k : Name) (x : ℚ), k ∈ names → (k, x) ∈ ps → field (dirName ps idx dyn) k = .ok (shown (k, x)).2 := by
    intro k x hk hx
    rw [hD]
    exact field_dir h _ ht hk hx
  have f1 : field (dirName ps idx dyn) (chars! "m1") = .ok (fmtF 4 m1) := hf _ _ (by decide) h1
  have f2 : field (dirName ps idx dyn) (chars! "m2") = .ok (fmtF 4 m2) := hf _ _ (by decide) h2
  have f3 : field (dirName ps idx dyn) (chars! "initial_period_in_days") = .ok (fmtE 4 P) := hf _ _ (by decide) h3
  have f4 : field (dirName ps idx dyn) (chars! "initial_z") = .ok (fmtE 4 z) := hf _ _ (by decide) h4
  have hi : ∀ (k : Name) (x : ℚ), (k, x) ∈ ps → isIn k (dirName ps idx dyn) = true := by
    intro k x hx
    rw [hD]
    exact isIn_key k (shown (k, x)).2 _ _ (List.mem_map.2 ⟨(k, x), mem_arranged.2 hx, rfl⟩)
  have hmass : isIn (chars! "initial_mass") (dirName ps idx dyn) = false := by
    rw [hD, show (chars! "initial_mass") = 'i' :: (chars! "nitial_mass") from rfl, isIn_body _ _ (by decide), isIn_ending idx hd _ (by decide +kernel)]
    intro q hq
    obtain ⟨p, hp, rfl⟩ := List.mem_map.1 hq
    refine ⟨?_, fun hh => absurd (shown_sign _ _ hh) (by simp [Sign])⟩
    rcases h.2 p (mem_arranged.1 hp) with hp' | hp'
    · exact (names_apart _ hp').2.1
    · unfold Tame at hp'
      simp only [Bool.and_eq_true] at hp'
      exact hp'.1.1.2
  have i1 := hi _ _ h1
  have i2 := hi _ _ h2
  have i3 := hi _ _ h3
  have i4 := hi _ _ h4
  refine ⟨fun hne => ?_, fun e he => ?_, ?_⟩
  · have hecc : isIn (chars! "initial_eccentricity") (dirName ps idx dyn) = false := by
      rw [hD, show (chars! "initial_eccentricity") = 'i' :: (chars! "nitial_eccentricity") from rfl, isIn_body _ _ (by decide),
        isIn_ending idx hd _ (by decide +kernel)]
      intro q hq
      obtain ⟨p, hp, rfl⟩ := List.mem_map.1 hq
      refine ⟨?_, fun hh => absurd (shown_sign _ _ hh) (by simp [Sign])⟩
      have hpp := mem_arranged.1 hp
      rcases h.2 p hpp with hp' | hp'
      · exact (names_apart _ hp').2.2.1 (hne p hpp)
      · unfold Tame at hp'
        simp only [Bool.and_eq_true] at hp'
        exact hp'.1.2
    have hw : wanted false (dirName ps idx dyn) = [(chars! "m1"), (chars! "m2"), (chars! "initial_period_in_days"), (chars! "initial_z")] := by
      unfold wanted
      rw [hmass, hecc]
      rfl
    unfold params
    rw [hw, if_neg]
    · exact fields_ok _ _ _ (.cons f1 (.cons f2 (.cons f3 (.cons f4 .nil))))
    · rintro ⟨-, n, hn, hf⟩
      simp only [List.mem_cons, List.not_mem_nil, or_false] at hn
      rcases hn with rfl | rfl | rfl | rfl <;> simp_all
  · have i5 := hi _ _ he
    have f5 : field (dirName ps idx dyn) (chars! "initial_eccentricity") = .ok (fmtF 4 e) := hf _ _ (by decide) he
    have hw : wanted false (dirName ps idx dyn) = names := by
      unfold wanted
      rw [hmass, i5]
      rfl
    unfold params
    rw [hw, if_neg]
    · exact fields_ok _ _ _ (.cons f1 (.cons f2 (.cons f3 (.cons f4 (.cons f5 .nil)))))
    · rintro ⟨-, n, hn, hf⟩
      simp only [names, List.mem_cons, List.not_mem_nil, or_false] at hn
      rcases hn with rfl | rfl | rfl | rfl | rfl <;> simp_all
  · have hw : wanted true (dirName ps idx dyn) = [(chars! "m1"), (chars! "m2"), (chars! "initial_period_in_days")] := by
      unfold wanted
      rw [hmass]
      rfl
    unfold params
    rw [hw, if_neg]
    · exact fields_ok _ _ _ (.cons f1 (.cons f2 (.cons f3 .nil)))
    · rintro ⟨-, n, hn, hf⟩
      simp only [List.mem_cons, List.not_mem_nil, or_false] at hn
      rcases hn with rfl | rfl | rfl <;> simp_all

/-- The columns of a usual grid. -/
def usual (m1 m2 P z : ℚ) : List (Name × ℚ) :=
  [((chars! "initial_z"), z), ((chars! "m1"), m1), ((chars! "m2"), m2), ((chars! "initial_period_in_days"), P)]

theorem usual_keys (m1 m2 P z : ℚ) : Keys (usual m1 m2 P z) := by
  refine ⟨?_, fun p hp => Or.inl ?_⟩
  · show [(chars! "initial_z"), (chars! "m1"), (chars! "m2"), (chars! "initial_period_in_days")].Nodup
    decide +kernel
  · simp only [usual, List.mem_cons, List.not_mem_nil, or_false] at hp
    rcases hp with rfl | rfl | rfl | rfl
    · show (chars! "initial_z") ∈ names
      decide +kernel
    · show (chars! "m1") ∈ names
      decide +kernel
    · show (chars! "m2") ∈ names
      decide +kernel
    · show (chars! "initial_period_in_days") ∈ names
      decide +kernel

theorem usual_key (m1 m2 P z : ℚ) (idx : Option ℕ) : params false (dirName (usual m1 m2 P z) idx none) = .ok [fmtF 4 m1, fmtF 4 m2, fmtE 4 P, fmtE 4 z] ∧
    params true (dirName (usual m1 m2 P z) idx none) = .ok [fmtF 4 m1, fmtF 4 m2, fmtE 4 P] := by
  have h := C104_directory (usual_keys m1 m2 P z) idx (dyn := none) (fun r hr => by simp at hr) (m1 := m1) (m2 := m2) (P := P) (z := z) (by simp [usual]) (by simp [usual])
    (by simp [usual]) (by simp [usual])
  refine ⟨h.1 fun p hp => ?_, h.2.2⟩
  simp only [usual, List.mem_cons, List.not_mem_nil, or_false] at hp
  rcases hp with rfl | rfl | rfl | rfl
  · show (chars! "initial_z") ≠ (chars! "initial_eccentricity")
    decide +kernel
  · show (chars! "m1") ≠ (chars! "initial_eccentricity")
    decide +kernel
  · show (chars! "m2") ≠ (chars! "initial_eccentricity")
    decide +kernel
  · show (chars! "initial_period_in_days") ≠ (chars! "initial_eccentricity")
    decide +kernel

theorem fmtF_close {p : ℕ} {x y : ℚ} (h : fmtF p x = fmtF p y) : |x - y| ≤ 1 / 10 ^ p := by
  have h1 := C104_fixed_read p x
  rw [h, C104_fixed_read] at h1
  have e : shownF p y = shownF p x := by simpa using h1
  have a := C104_fixed p x
  have b := C104_fixed p y
  rw [e] at b
  rw [abs_le] at *
  have : (1 : ℚ) / 10 ^ p = 1 / 2 / 10 ^ p + 1 / 2 / 10 ^ p := by ring
  constructor <;> linarith [a.1, a.2, b.1, b.2]

theorem fmtE_close {p : ℕ} {x y : ℚ} (h : fmtE p x = fmtE p y) : |x - y| ≤ 1 / 10 ^ p * ((|x| + |y|) / 2) := by
  have h1 := C104_power_read p x
  rw [h, C104_power_read] at h1
  have e : shownE p y = shownE p x := by simpa using h1
  have a := C104_power p x
  have b := C104_power p y
  rw [e] at b
  have : (1 : ℚ) / 10 ^ p * ((|x| + |y|) / 2) = 1 / 2 / 10 ^ p * |x| + 1 / 2 / 10 ^ p * |y| := by ring
  rw [this]
  have a' := abs_le.1 a
  have b' := abs_le.1 b
  rw [abs_le]
  constructor <;> linarith [a'.1, a'.2, b'.1, b'.2]

/-- **C104** Grid points are told apart by their directories if a mass differs by more than a ten-thousandth, or the period or the metallicity
by more than a ten-thousandth of it. -/
theorem C104_apart {m1 m2 P z n1 n2 Q y : ℚ} {i j : Option ℕ}
    (h : |m1 - n1| > 1 / 10 ^ 4 ∨ |m2 - n2| > 1 / 10 ^ 4 ∨ |P - Q| > 1 / 10 ^ 4 * ((|P| + |Q|) / 2) ∨ |z - y| > 1 / 10 ^ 4 * ((|z| + |y|) / 2)) :
    params false (dirName (usual m1 m2 P z) i none) ≠ params false (dirName (usual n1 n2 Q y) j none) := by
  rw [(usual_key m1 m2 P z i).1, (usual_key n1 n2 Q y j).1]
  intro he
  simp only [Except.ok.injEq, List.cons.injEq, and_true] at he
  obtain ⟨e1, e2, e3, e4⟩ := he
  rcases h with h | h | h | h
  · exact absurd (fmtF_close e1) (not_le.2 h)
  · exact absurd (fmtF_close e2) (not_le.2 h)
  · exact absurd (fmtE_close e3) (not_le.2 h)
  · exact absurd (fmtE_close e4) (not_le.2 h)

theorem folders_two {v w : Bool} {a b : Name} {k : List Name} (ha : params v a = .ok k) (hb : params w b = .ok k) : folders [(v, a), (w, b)] = .ok [(k, b)] := by
  unfold folders folders.go
  simp only [ha]
  unfold folders.go
  simp only [hb]
  unfold folders.go
  simp [GridJoin.Dict.put]

/-- **C104** (violated) Masses that differ by less are not told apart: of two runs with 10 and 10.00001 solar masses one is lost. -/
theorem C104_close_violated (m2 P z : ℚ) (i j : ℕ) : ∃ k, folders [(false, dirName (usual 10 m2 P z) (some i) none),
    (false, dirName (usual (1000001 / 100000) m2 P z) (some j) none)] = .ok [(k, dirName (usual (1000001 / 100000) m2 P z) (some j) none)] := by
  refine ⟨_, folders_two (usual_key 10 m2 P z (some i)).1 ?_⟩
  rw [(usual_key _ m2 P z (some j)).1, show fmtF 4 (1000001 / 100000) = fmtF 4 10 by decide +kernel]

/-- **C104** (violated) Runs of a grid over another parameter are not told apart: all but one are lost, whatever its values. -/
theorem C104_other_violated (k : Name) (hk : Tame k = true) (m1 m2 P z x y : ℚ) (i j : ℕ) :
    ∃ key, folders [(false, dirName ((k, x) :: usual m1 m2 P z) (some i) none), (false, dirName ((k, y) :: usual m1 m2 P z) (some j) none)] =
      .ok [(key, dirName ((k, y) :: usual m1 m2 P z) (some j) none)] := by
  have hn : ∀ w ∈ names, k ≠ w := by
    rintro w hw rfl
    unfold Tame at hk
    simp only [Bool.and_eq_true, List.all_eq_true] at hk
    have := hk.1.1.1 k hw
    have hne : k ≠ [] := by rintro rfl; revert hw; decide
    cases k with
    | nil => exact absurd rfl hne
    | cons c t =>
      have hp : ∀ s : Name, s.isPrefixOf s = true := fun s => by
        induction s with
        | nil => rfl
        | cons c t ih => simp [List.isPrefixOf, ih]
      simp only [List.cons_append, noPre, GridJoin.compat, hp, Bool.or_self, Bool.not_true, Bool.false_and, Bool.false_eq_true] at this
  have hK : ∀ x, Keys ((k, x) :: usual m1 m2 P z) := by
    intro x
    refine ⟨?_, fun p hp => ?_⟩
    · rw [List.map_cons, List.nodup_cons]
      refine ⟨?_, (usual_keys m1 m2 P z).1⟩
      intro hm
      obtain ⟨p, hp, hp'⟩ := List.mem_map.1 hm
      rcases (usual_keys m1 m2 P z).2 p hp with h | h
      · exact hn _ h hp'.symm
      · simp only [usual, List.mem_cons, List.not_mem_nil, or_false] at hp
        rcases hp with rfl | rfl | rfl | rfl
        · exact hn (chars! "initial_z") (by decide) hp'.symm
        · exact hn (chars! "m1") (by decide) hp'.symm
        · exact hn (chars! "m2") (by decide) hp'.symm
        · exact hn (chars! "initial_period_in_days") (by decide) hp'.symm
    · rcases List.mem_cons.1 hp with rfl | hp
      · exact Or.inr hk
      · exact (usual_keys m1 m2 P z).2 p hp
  have hE : ∀ x, ∀ p ∈ (k, x) :: usual m1 m2 P z, p.1 ≠ (chars! "initial_eccentricity") := by
    intro x p hp
    rcases List.mem_cons.1 hp with rfl | hp
    · exact hn _ (by decide)
    · simp only [usual, List.mem_cons, List.not_mem_nil, or_false] at hp
      rcases hp with rfl | rfl | rfl | rfl
      · show (chars! "initial_z") ≠ (chars! "initial_eccentricity")
        decide +kernel
      · show (chars! "m1") ≠ (chars! "initial_eccentricity")
        decide +kernel
      · show (chars! "m2") ≠ (chars! "initial_eccentricity")
        decide +kernel
      · show (chars! "initial_period_in_days") ≠ (chars! "initial_eccentricity")
        decide +kernel
  have hD : ∀ x i, params false (dirName ((k, x) :: usual m1 m2 P z) (some i) none) = .ok [fmtF 4 m1, fmtF 4 m2, fmtE 4 P, fmtE 4 z] := fun x i =>
    (C104_directory (hK x) (some i) (dyn := none) (fun r hr => by simp at hr) (by simp [usual]) (by simp [usual]) (by simp [usual]) (by simp [usual])).1 (hE x)
  exact ⟨_, folders_two (hD x i) (hD y j)⟩

example : Tame (chars! "mass_transfer_beta") = true ∧ Tame (chars! "Zbase") = true ∧ Tame (chars! "new_omega_div_omega_crit") = true := by decide +kernel

/-- **C104** (violated) If a folder on the way ends with `v1`, runs with different metallicities are not told apart. -/
theorem C104_version_violated (m1 m2 P z y : ℚ) (i j : ℕ) : ∃ k, folders [(true, dirName (usual m1 m2 P z) (some i) none),
    (true, dirName (usual m1 m2 P y) (some j) none)] = .ok [(k, dirName (usual m1 m2 P y) (some j) none)] :=
  ⟨_, folders_two (usual_key m1 m2 P z (some i)).2 (usual_key m1 m2 P y (some j)).2⟩

/-- **C104** (violated) A grid without a column for the metallicity is run, but its directories cannot be read. -/
theorem C104_no_metallicity_violated : params false (dirName [((chars! "m1"), 10), ((chars! "m2"), 5), ((chars! "initial_eccentricity"), 0)] (some 0) none)
    = .error .assertion := by decide +kernel

theorem takeWhile_end (a b : Name) (h : '_' ∉ b) : (a ++ '_' :: b).reverse.takeWhile (fun c => c != '_') = b.reverse := by
  rw [show (a ++ '_' :: b).reverse = b.reverse ++ '_' :: a.reverse by simp]
  have key : ∀ t : Name, '_' ∉ t → (t ++ '_' :: a.reverse).takeWhile (fun c => c != '_') = t := by
    intro t ht
    induction t with
    | nil => simp
    | cons c t ih =>
      have hc : (c != '_') = true := by simpa using fun hh : c = '_' => ht (by simp [hh])
      rw [List.cons_append, List.takeWhile_cons, hc, if_pos rfl, ih fun hh => ht (by simp [hh])]
  exact key _ (by simpa using h)

/-- **C104** Points of different index have different directories. -/
theorem C104_unique {ps qs : List (Name × ℚ)} {i j : ℕ} (h : dirName ps (some i) none = dirName qs (some j) none) : i = j := by
  have key : ∀ (ps : List (Name × ℚ)) (i : ℕ), (dirName ps (some i) none).reverse.takeWhile (fun c => c != '_') = (dec i).reverse := by
    intro ps i
    have : ∃ a, dirName ps (some i) none = a ++ '_' :: dec i := by
      have hd : ∃ b, dirName ps (some i) none = b ++ ending (some i) none := ⟨_, rfl⟩
      obtain ⟨b, hb⟩ := hd
      exact ⟨b ++ (chars! "_grid_index"), by rw [hb]; simp [ending]⟩
    obtain ⟨a, ha⟩ := this
    rw [ha]
    exact takeWhile_end _ _ (not_mem_dec (by decide) i)
  have h2 := key ps i
  rw [h, key qs j] at h2
  have h3 : dec j = dec i := List.reverse_injective h2
  have h4 := digitsVal_dec i
  rw [← h3, digitsVal_dec] at h4
  simpa using h4.symm

/-! ### Files of grid points -/

/-- The value that is read for a number. -/
def readValue : Cell → ℚ
  | .real x => if x.den = 1 then x else shownE 10 x
  | .int z => z
  | _ => 0

def Number : Cell → Prop
  | .real _ => True
  | .int _ => True
  | _ => False

/-- A name that can be written in an inlist. -/
def Nice (k : Name) : Prop := Trim k ∧ '=' ∉ k

theorem trim_of {s : Name} (hs : s ≠ []) (h : ∀ c ∈ s, blank c = false) : Trim s := by
  constructor
  · cases s with
    | nil => exact absurd rfl hs
    | cons c t => exact ⟨c, t, rfl, h c (by simp)⟩
  · obtain ⟨t, c, rfl⟩ := List.eq_nil_or_concat s |>.resolve_left hs
    exact ⟨t, c, by simp, h c (by simp)⟩

theorem decZ_ne (z : ℤ) : decZ z ≠ [] := by
  cases z with
  | ofNat n => exact dec_ne n
  | negSucc n => simp [decZ]

theorem float_decZ (z : ℤ) : float (decZ z) = some (z : ℚ) := by
  have hu : ∀ n : ℕ, unsigned (dec n) = some (n : ℚ) := by
    intro n
    unfold unsigned
    rw [cutAt_none _ _ (not_mem_dec (by decide) n)]
    dsimp only
    unfold mantissa
    rw [cutAt_none _ _ (not_mem_dec (by decide) n)]
    dsimp only
    rw [digitsVal_dec]
    rfl
  have hb : ∀ c ∈ decZ z, blank c = false := by
    intro c hc
    rcases mem_decZ hc with rfl | h
    · rfl
    · exact digit_not_blank h
  cases z with
  | ofNat n =>
    have hd : ∃ c r, dec n = c :: r ∧ c.isDigit = true := by
      cases h : dec n with
      | nil => exact absurd h (dec_ne n)
      | cons c r => exact ⟨c, r, rfl, digit_of_mem (h ▸ List.mem_cons_self)⟩
    have := float_sign (x := 0) (t := dec n) (v := n) hb hd (hu n)
    simp only [sign, lt_irrefl, if_false, List.nil_append] at this
    exact this
  | negSucc n =>
    unfold float
    rw [strip_none hb]
    show (unsigned (dec (n + 1))).map _ = _
    rw [hu]
    simp [Int.negSucc_eq]

theorem num_decZ (z : ℤ) : num (decZ z) = some (z : ℝ) := by
  unfold num
  rw [float_decZ]
  simp

theorem toD_fmtE (x : ℚ) : toD (fmtE 10 x) = mantE 10 x ++ 'd' :: expE 10 x := by
  have key : ∀ s : Name, 'e' ∉ s → toD s = s := by
    intro s hs
    unfold toD
    conv_rhs => rw [← List.map_id s]
    refine List.map_congr_left fun c hc => ?_
    have : c ≠ 'e' := fun hh => hs (hh ▸ hc)
    simp [this]
  unfold fmtE
  have h : toD (mantE 10 x ++ 'e' :: expE 10 x) = toD (mantE 10 x) ++ 'd' :: toD (expE 10 x) := by
    unfold toD
    simp
  rw [h, key _ (fun hh => ?_), key _ (fun hh => ?_)]
  · rcases expE_sign 10 x _ hh with h | h | h <;> simp at h
  · rcases mantE_sign 10 x _ hh with h | h | h <;> simp at h

theorem mantE_ne (p : ℕ) (x : ℚ) : mantE p x ≠ [] := by
  unfold mantE
  simp

theorem trim_mantE (p : ℕ) (x : ℚ) : Trim (mantE p x) := trim_of (mantE_ne p x) fun c hc => by
  rcases mantE_sign p x c hc with h | rfl | rfl
  · exact digit_not_blank h
  · rfl
  · rfl

theorem trim_expE (p : ℕ) (x : ℚ) : Trim (expE p x) := trim_of (by unfold expE; simp) fun c hc => by
  rcases expE_sign p x c hc with h | rfl | rfl
  · exact digit_not_blank h
  · rfl
  · rfl

theorem trim_decZ (z : ℤ) : Trim (decZ z) := trim_of (decZ_ne z) fun c hc => by
  rcases mem_decZ hc with rfl | h
  · rfl
  · exact digit_not_blank h

theorem blank_nil : Blank [] := fun c hc => by simp at hc
theorem blank_tab : Blank ['\t'] := fun c hc => by rw [List.mem_singleton.1 hc]; rfl
theorem blank_one : Blank [' '] := fun c hc => by rw [List.mem_singleton.1 hc]; rfl
theorem blank_end : Blank ['\n'] := fun c hc => by rw [List.mem_singleton.1 hc]; rfl

/-- A line with a power of ten. -/
theorem power_line {b : Name} (hb : Blank b) {k : Name} (hk : Nice k) (x : ℚ) :
    readLine num (b ++ (k ++ (chars! " = ") ++ toD (fmtE 10 x) ++ ['\n'])) = .ok (some (rename k, ((shownE 10 x : ℚ) : ℝ))) := by
  have hm : ∀ {c : Char}, c.isDigit = false → c ≠ '.' → c ≠ '-' → c ∉ mantE 10 x := fun h1 h2 h3 hh => by
    rcases mantE_sign 10 x _ hh with h | h | h
    · rw [h1] at h; cases h
    · exact h2 h
    · exact h3 h
  have he : ∀ {c : Char}, c.isDigit = false → c ≠ '+' → c ≠ '-' → c ∉ expE 10 x := fun h1 h2 h3 hh => by
    rcases expE_sign 10 x _ hh with h | h | h
    · rw [h1] at h; cases h
    · exact h2 h
    · exact h3 h
  have h := (C85_line num b [' '] [' '] ['\n'] k (mantE 10 x) (expE 10 x) hb blank_one blank_one blank_end hk.1 (trim_mantE 10 x) (trim_expE 10 x) hk.2
    (hm (by decide) (by decide) (by decide)) (he (by decide) (by decide) (by decide)) (hm (by decide) (by decide) (by decide))
    (he (by decide) (by decide) (by decide))).2
  rw [toD_fmtE, show b ++ (k ++ (chars! " = ") ++ (mantE 10 x ++ 'd' :: expE 10 x) ++ ['\n']) =
    b ++ (k ++ [' '] ++ '=' :: ([' '] ++ mantE 10 x ++ 'd' :: expE 10 x) ++ ['\n']) by simp, h]
  have e1 : num (mantE 10 x) = some ((((if x < 0 then -1 else 1) * (((sci 10 |x|).1 : ℚ) / 10 ^ 10) : ℚ)) : ℝ) := by
    unfold num
    rw [mantE_float]
    rfl
  have e2 : num (expE 10 x) = some ((((sci 10 |x|).2 : ℚ)) : ℝ) := by
    unfold num
    rw [float_exp]
    rfl
  rw [e1, e2]
  dsimp only
  congr 3
  unfold shownE
  rw [show ((((sci 10 |x|).2 : ℚ)) : ℝ) = (((sci 10 |x|).2 : ℤ) : ℝ) by simp, Real.rpow_intCast]
  push_cast
  ring

/-- **C104** A number of a grid point is read from its file under the name of the tables. -/
theorem C104_cell {k : Name} (hk : Nice k) {c : Cell} (hc : Number c) : readLine num (cellLine k c) = .ok (some (rename k, ((readValue c : ℚ) : ℝ))) := by
  have hd : ∀ z : ℤ, ∀ {b : Name}, Blank b → readLine num (b ++ (k ++ (chars! " = ") ++ decZ z ++ ['\n'])) = .ok (some (rename k, (z : ℝ))) := by
    intro z b hb
    have hm : ∀ {c : Char}, c.isDigit = false → c ≠ '-' → c ∉ decZ z := fun h1 h2 hh => by
      rcases mem_decZ hh with h | h
      · exact h2 h
      · rw [h1] at h; cases h
    have h := (C85_line num b [' '] [' '] ['\n'] k (decZ z) (decZ z) hb blank_one blank_one blank_end hk.1 (trim_decZ z) (trim_decZ z) hk.2
      (hm (by decide) (by decide)) (hm (by decide) (by decide)) (hm (by decide) (by decide)) (hm (by decide) (by decide))).1
    rw [show b ++ (k ++ (chars! " = ") ++ decZ z ++ ['\n']) = b ++ (k ++ [' '] ++ '=' :: ([' '] ++ decZ z) ++ ['\n']) by simp, h, num_decZ]
  cases c with
  | bool b => exact absurd hc id
  | text s => exact absurd hc id
  | int z =>
    have := hd z blank_nil
    rw [List.nil_append] at this
    rw [cellLine, this]
    simp [readValue]
  | real x =>
    show readLine num (if x.den = 1 then '\t' :: (k ++ (chars! " = ") ++ decZ x.num ++ ['\n'])
      else '\t' :: (k ++ (chars! " = ") ++ toD (fmtE 10 x) ++ ['\n'])) = .ok (some (rename k, (((if x.den = 1 then x else shownE 10 x : ℚ)) : ℝ)))
    by_cases hx : x.den = 1
    · rw [if_pos hx, if_pos hx]
      have := hd x.num blank_tab
      rw [List.singleton_append] at this
      rw [this]
      have h2 : (x.num : ℚ) = x := (Rat.den_eq_one_iff x).1 hx
      congr 3
      conv_rhs => rw [← h2]
      simp
    · rw [if_neg hx, if_neg hx]
      exact power_line blank_tab hk x

/-- **C104** What is read is the value of the row within the tenth decimal of its leading digit, whole numbers exactly. -/
theorem C104_precision (x : ℚ) : |readValue (.real x) - x| ≤ 1 / 2 / 10 ^ 10 * |x| ∧ (x.den = 1 → readValue (.real x) = x) := by
  refine ⟨?_, fun h => if_pos h⟩
  show |(if x.den = 1 then x else shownE 10 x) - x| ≤ _
  split_ifs
  · simp
  · exact C104_power 10 x

/-- **C104** (violated) A truth value of a grid point cannot be read, and with it the file. -/
theorem C104_truth_violated {k : Name} (hk : Nice k) (b : Bool) : readLine num (cellLine k (.bool b)) = .error .value := by
  have t1 : num (chars! ".true.") = none := by
    unfold num
    rw [show float (chars! ".true.") = none by decide +kernel]
    rfl
  have t2 : num (chars! ".false.") = none := by
    unfold num
    rw [show float (chars! ".false.") = none by decide +kernel]
    rfl
  have tr : ∀ s : Name, s = (chars! ".true.") ∨ s = (chars! ".false.") → Trim s ∧ '=' ∉ s ∧ 'd' ∉ s := by
    intro s hs
    refine ⟨trim_of (by rcases hs with rfl | rfl <;> simp) ?_, by rcases hs with rfl | rfl <;> simp, by rcases hs with rfl | rfl <;> simp⟩
    rcases hs with rfl | rfl <;> decide +kernel
  have key : ∀ s : Name, s = (chars! ".true.") ∨ s = (chars! ".false.") → readLine num (['\t'] ++ (k ++ [' '] ++ '=' :: ([' '] ++ s) ++ ['\n'])) = .error .value := by
    intro s hs
    obtain ⟨a1, a2, a3⟩ := tr s hs
    rw [(C85_line num ['\t'] [' '] [' '] ['\n'] k s s blank_tab blank_one blank_one blank_end hk.1 a1 a1 hk.2 a2 a2 a3 a3).1]
    rcases hs with rfl | rfl
    · rw [t1]
    · rw [t2]
  cases b with
  | true =>
    rw [← key (chars! ".true.") (Or.inl rfl)]
    congr 1
    simp [cellLine]
  | false =>
    rw [← key (chars! ".false.") (Or.inr rfl)]
    congr 1
    simp [cellLine]

/-- **C104** All the numbers of a grid point are read from its file, controls and job alike. -/
theorem C104_file (controls job : List (Name × Cell)) (h : ∀ p ∈ controls ++ job, Nice p.1 ∧ Number p.2) :
    readLines num (gridPoints controls job) = .ok ((controls ++ job).map fun p => (rename p.1, ((readValue p.2 : ℚ) : ℝ))) := by
  have key : ∀ (hd tl : Name) (ps : List (Name × Cell)) (rest : List Name) (vs : List (Name × ℝ)), hd.count '=' ≠ 1 → tl.count '=' ≠ 1 →
      (∀ p ∈ ps, Nice p.1 ∧ Number p.2) → readLines num rest = .ok vs →
      readLines num ((if ps.isEmpty then [] else hd :: ps.map (fun p => cellLine p.1 p.2) ++ [tl]) ++ rest) =
        .ok (ps.map (fun p => (rename p.1, ((readValue p.2 : ℚ) : ℝ))) ++ vs) := by
    intro hd tl ps rest vs h1 h2 hp hr
    have lines : ∀ qs : List (Name × Cell), (∀ p ∈ qs, Nice p.1 ∧ Number p.2) →
        readLines num (qs.map (fun p => cellLine p.1 p.2) ++ tl :: rest) = .ok (qs.map (fun p => (rename p.1, ((readValue p.2 : ℚ) : ℝ))) ++ vs) := by
      intro qs
      induction qs with
      | nil =>
        intro _
        rw [List.map_nil, List.nil_append, readLines, C85_skip num tl h2, hr]
        rfl
      | cons q qs ih =>
        intro hq
        obtain ⟨a, b⟩ := hq q (by simp)
        rw [List.map_cons, List.cons_append, readLines, C104_cell a b]
        dsimp only
        rw [ih fun p hp => hq p (by simp [hp])]
        rfl
    cases hps : ps.isEmpty with
    | true =>
      rw [List.isEmpty_iff.1 hps]
      simpa using hr
    | false =>
      rw [if_neg (by simp), List.append_assoc, List.singleton_append, List.cons_append, readLines, C85_skip num hd h1]
      dsimp only
      rw [lines ps hp]
      rfl
  have hj := key (chars! "&binary_job\n") (chars! "/ ! end of binary_job namelist\n") job [] [] (by decide +kernel) (by decide +kernel)
    (fun p hp => h p (by simp [hp])) rfl
  rw [List.append_nil, List.append_nil] at hj
  have hc := key (chars! "&binary_controls\n") (chars! "/ ! end of binary_controls namelist\n") controls _ _ (by decide +kernel) (by decide +kernel)
    (fun p hp => h p (by simp [hp])) hj
  unfold gridPoints
  rw [hc, List.map_append]

/-- **C104** From the file of a step of a single star mass and metallicity are read. -/
theorem C104_star (mass : ℚ) (z : Option ℚ) (newZ : Bool) : readLines num (starPoints mass z newZ) = .ok (((chars! "initial_mass"), ((shownE 10 mass : ℚ) : ℝ)) ::
    ((z.map fun z => [((chars! "initial_z"), ((shownE 10 z : ℚ) : ℝ)), ((chars! "Zbase"), ((shownE 10 z : ℚ) : ℝ))]).getD [] ++
      (z.map fun z => if newZ then [((chars! "new_Z"), ((shownE 10 z : ℚ) : ℝ))] else []).getD [])) := by
  have nice : ∀ k ∈ [(chars! "initial_mass"), (chars! "initial_z"), (chars! "Zbase"), (chars! "new_Z")], Nice k ∧ rename k = k := by
    intro k hk
    refine ⟨⟨trim_of ?_ ?_, ?_⟩, ?_⟩ <;> revert k <;> decide +kernel
  have line : ∀ k ∈ [(chars! "initial_mass"), (chars! "initial_z"), (chars! "Zbase"), (chars! "new_Z")], ∀ x : ℚ,
      readLine num (k ++ (chars! " = ") ++ toD (fmtE 10 x) ++ ['\n']) = .ok (some (k, ((shownE 10 x : ℚ) : ℝ))) := by
    intro k hk x
    have := power_line blank_nil (nice k hk).1 x
    rw [List.nil_append, (nice k hk).2] at this
    exact this
  have l1 : ∀ x : ℚ, readLine num ((chars! "initial_mass = ") ++ toD (fmtE 10 x) ++ ['\n']) = .ok (some ((chars! "initial_mass"), ((shownE 10 x : ℚ) : ℝ))) :=
    fun x => line (chars! "initial_mass") (by decide) x
  have l2 : ∀ x : ℚ, readLine num ((chars! "initial_z = ") ++ toD (fmtE 10 x) ++ ['\n']) = .ok (some ((chars! "initial_z"), ((shownE 10 x : ℚ) : ℝ))) :=
    fun x => line (chars! "initial_z") (by decide) x
  have l3 : ∀ x : ℚ, readLine num ((chars! "Zbase = ") ++ toD (fmtE 10 x) ++ ['\n']) = .ok (some ((chars! "Zbase"), ((shownE 10 x : ℚ) : ℝ))) :=
    fun x => line (chars! "Zbase") (by decide) x
  have l4 : ∀ x : ℚ, readLine num ((chars! "new_Z = ") ++ toD (fmtE 10 x) ++ ['\n']) = .ok (some ((chars! "new_Z"), ((shownE 10 x : ℚ) : ℝ))) :=
    fun x => line (chars! "new_Z") (by decide) x
  have s1 := C85_skip num (chars! "&controls\n") (by decide +kernel)
  have s2 := C85_skip num (chars! "/ ! end of star_controls namelist\n") (by decide +kernel)
  have s3 := C85_skip num (chars! "&star_job\n") (by decide +kernel)
  have s4 := C85_skip num (chars! "/ ! end of star_job namelist\n") (by decide +kernel)
  have step : ∀ (l : Name) (ls : List Name) (o : Option (Name × ℝ)) (vs : List (Name × ℝ)), readLine num l = .ok o → readLines num ls = .ok vs →
      readLines num (l :: ls) = .ok (o.toList ++ vs) := by
    intro l ls o vs h1 h2
    rw [readLines, h1]
    dsimp only
    rw [h2]
  unfold starPoints
  cases z with
  | none => exact step _ _ _ _ s1 (step _ _ _ _ (l1 mass) (step _ _ _ _ s2 (step _ _ _ _ s3 (step _ _ _ _ s4 rfl))))
  | some z =>
    cases newZ with
    | false => exact step _ _ _ _ s1 (step _ _ _ _ (l1 mass) (step _ _ _ _ (l2 z) (step _ _ _ _ (l3 z) (step _ _ _ _ s2 (step _ _ _ _ s3 (step _ _ _ _ s4 rfl))))))
    | true => exact step _ _ _ _ s1 (step _ _ _ _ (l1 mass) (step _ _ _ _ (l2 z) (step _ _ _ _ (l3 z) (step _ _ _ _ s2 (step _ _ _ _ s3 (step _ _ _ _ (l4 z) (step _ _ _ _ s4 rfl)))))))

/-! ### What a run is given -/

theorem mem_firsts (l : List Name) : (∀ k, k ∈ firsts l ↔ k ∈ l) ∧ (firsts l).Nodup := by
  unfold firsts
  have key : ∀ (l acc : List Name), acc.Nodup →
      (∀ k, k ∈ l.foldl (fun acc k => if acc.contains k then acc else acc ++ [k]) acc ↔ k ∈ acc ∨ k ∈ l) ∧
      (l.foldl (fun acc k => if acc.contains k then acc else acc ++ [k]) acc).Nodup := by
    intro l
    induction l with
    | nil => intro acc h; simp [h]
    | cons a l ih =>
      intro acc h
      rw [List.foldl_cons]
      by_cases ha : acc.contains a = true
      · rw [if_pos ha]
        obtain ⟨h1, h2⟩ := ih acc h
        refine ⟨fun k => ?_, h2⟩
        rw [h1, List.mem_cons]
        have : a ∈ acc := by simpa using ha
        constructor
        · rintro (h | h)
          · exact Or.inl h
          · exact Or.inr (Or.inr h)
        · rintro (h | rfl | h)
          · exact Or.inl h
          · exact Or.inl this
          · exact Or.inr h
      · rw [if_neg ha]
        have hn : a ∉ acc := by simpa using ha
        obtain ⟨h1, h2⟩ := ih (acc ++ [a]) (by
          rw [List.nodup_append]
          exact ⟨h, by simp, fun x hx y hy => by rw [List.mem_singleton.1 hy]; rintro rfl; exact hn hx⟩)
        refine ⟨fun k => ?_, h2⟩
        rw [h1]
        simp [or_assoc]
  obtain ⟨h1, h2⟩ := key l [] (by simp)
  exact ⟨fun k => by rw [h1]; simp, h2⟩

/-- **C104** The parameters of a grid are the columns which an inlist of the project knows, each once. -/
theorem C104_parameters (K : Known) (cols : List Name) : (paramKeys K cols).Nodup ∧ ∀ k, k ∈ paramKeys K cols ↔
    k ∈ cols ∧ (k ∈ K.controls ∨ k ∈ K.job ∨ k ∈ K.c1 ∨ k ∈ K.j1 ∨ k ∈ K.c2 ∨ k ∈ K.j2) := by
  refine ⟨(mem_firsts _).2, fun k => ?_⟩
  unfold paramKeys
  rw [(mem_firsts _).1]
  have hv : ∀ keys, k ∈ varied cols keys ↔ k ∈ cols ∧ k ∈ keys := by
    intro keys
    unfold varied
    rw [List.mem_filter]
    simp
  simp only [List.mem_append, hv]
  tauto

/-- **C104** (violated) A column which no inlist knows, as `initial_period_days` for `initial_period_in_days`, changes nothing: rows that
differ in it only are run with the same files, and directories that differ in the index only. -/
theorem C104_unknown_violated (K : Known) (cols : List Name) (row row' : Name → Cell) (num num' : Name → ℚ) (c : Name)
    (hc : c ∉ K.controls ∧ c ∉ K.job ∧ c ∉ K.c1 ∧ c ∉ K.j1 ∧ c ∉ K.c2 ∧ c ∉ K.j2) (h : ∀ k, k ≠ c → row k = row' k) (h' : ∀ k, k ≠ c → num k = num' k) (i : ℕ) :
    (∀ keys ∈ [K.controls, K.job, K.c1, K.j1, K.c2, K.j2], section_ row cols keys = section_ row' cols keys) ∧
    gridPoints (section_ row cols K.controls) (section_ row cols K.job) = gridPoints (section_ row' cols K.controls) (section_ row' cols K.job) ∧
    pointDir K cols num i = pointDir K cols num' i := by
  have hs : ∀ keys ∈ [K.controls, K.job, K.c1, K.j1, K.c2, K.j2], section_ row cols keys = section_ row' cols keys := by
    intro keys hk
    have hck : c ∉ keys := by
      simp only [List.mem_cons, List.not_mem_nil, or_false] at hk
      rcases hk with rfl | rfl | rfl | rfl | rfl | rfl
      exacts [hc.1, hc.2.1, hc.2.2.1, hc.2.2.2.1, hc.2.2.2.2.1, hc.2.2.2.2.2]
    unfold section_
    refine List.map_congr_left fun k hk' => ?_
    have : k ∈ keys := by
      have := (List.mem_filter.1 hk').2
      simpa using this
    rw [h k (fun he => hck (he ▸ this))]
  refine ⟨hs, ?_, ?_⟩
  · rw [hs _ (by simp), hs _ (by simp)]
  · unfold pointDir
    congr 1
    refine List.map_congr_left fun k hk => ?_
    have := ((C104_parameters K cols).2 k).1 hk
    rw [h' k]
    rintro rfl
    tauto

theorem find_last {n : Name} {v : Cell} {l : List (Name × Cell)} (hn : (l.map (·.1)).Nodup) (hv : (n, v) ∈ l) (m : List (Name × Cell)) :
    ((m ++ l).reverse.find? fun p => p.1 == n) = some (n, v) := by
  rw [List.reverse_append, List.find?_append]
  have : l.reverse.find? (fun p => p.1 == n) = some (n, v) := by
    cases hf : l.reverse.find? (fun p => p.1 == n) with
    | none =>
      have := List.find?_eq_none.1 hf (n, v) (List.mem_reverse.2 hv)
      simp at this
    | some p =>
      have h1 := List.find?_some hf
      have h2 := List.mem_reverse.1 (List.mem_of_find?_eq_some hf)
      have : p = (n, v) := List.inj_on_of_nodup_map hn h2 hv (by simpa using h1)
      rw [this]
  rw [this]
  rfl

/-- **C104** A control of the binary is run with the value of the row, whatever the project says. -/
theorem C104_controls (read : File → List (Name × Cell)) (row : Name → Cell) (cols keys : List Name) (hcols : cols.Nodup)
    (hp : read .points = section_ row cols keys) (k : Name) (hk : k ∈ cols) (hk' : k ∈ keys) : effective read mainInlist.1 k = some (row k) := by
  unfold effective mainInlist
  simp only [List.flatMap_cons, List.flatMap_nil, List.append_nil]
  have hm : (k, row k) ∈ section_ row cols keys := List.mem_map.2 ⟨k, List.mem_filter.2 ⟨hk, by simpa using hk'⟩, rfl⟩
  have hnd : ((section_ row cols keys).map (·.1)).Nodup := by
    unfold section_
    rw [List.map_map, show ((fun x : Name × Cell => x.1) ∘ fun c => (c, row c)) = id from rfl, List.map_id]
    exact hcols.filter _
  rw [hp, find_last hnd hm]
  rfl

/-- **C104** (violated) A parameter of the job of the binary is run with the value of the project in all points: the file of the grid
point, where it is written, is not read for it. -/
theorem C104_job_violated (read read' : File → List (Name × Cell)) (h : read .project = read' .project) (k : Name) :
    effective read mainInlist.2 k = effective read' mainInlist.2 k := by
  unfold effective mainInlist
  simp [h]

/-! ### Formation of stars -/

/-- **C104** With one or two steps each step of a star of a binary has its own inlist, and the second the metallicity. -/
theorem C104_formation {P : Type} (p q : P) : formation 0 none [p] = [some ⟨p, false, false⟩] ∧
    formation 0 none [p, q] = [some ⟨p, false, false⟩, some ⟨q, true, true⟩] := ⟨rfl, rfl⟩

theorem formation_later {P : Type} (s : Option (Step P)) : ∀ (ps : List P) (i : ℕ), 2 ≤ i → formation i s ps = List.replicate ps.length s
  | [], _, _ => rfl
  | p :: ps, i, h => by
    unfold formation
    dsimp only
    rw [if_neg (by omega), if_neg (by omega), formation_later s ps (i + 1) (by omega)]
    rfl

/-- **C104** (violated) All the later steps repeat the second: their own inlists are not used. -/
theorem C104_formation_violated {P : Type} (p q : P) (ps : List P) : formation 0 none (p :: q :: ps) =
    some ⟨p, false, false⟩ :: some ⟨q, true, true⟩ :: List.replicate ps.length (some ⟨q, true, true⟩) := by
  unfold formation
  dsimp only
  unfold formation
  dsimp only
  rw [formation_later _ ps _ (by omega)]
  rfl

/-- **C104** Each step of a single star has its own inlist; the last one has the metallicity, a second one that is not the last makes it the
new metallicity. -/
theorem C104_single {P : Type} (ps : List P) : (single ps).map (·.project) = ps ∧
    ∀ i (hi : i < ps.length), (single ps)[i]? = some ⟨ps[i], decide (i = ps.length - 1 ∨ i = 1), decide (i ≠ ps.length - 1 ∧ i = 1)⟩ := by
  constructor
  · unfold single
    rw [List.map_map]
    refine List.ext_getElem (by simp) fun i h1 h2 => ?_
    simp only [List.getElem_map, List.getElem_zipIdx, Function.comp]
    split_ifs <;> rfl
  · intro i hi
    unfold single
    rw [List.getElem?_map, List.getElem?_zipIdx, List.getElem?_eq_getElem hi]
    simp only [Option.map_some, Nat.zero_add, Option.some.injEq]
    by_cases h1 : i = ps.length - 1
    · rw [if_pos h1]
      simp [← h1]
    · rw [if_neg h1]
      by_cases h2 : i = 1
      · rw [if_pos h2]
        have h3 : ¬ 1 = ps.length - 1 := h2 ▸ h1
        simp [h2, h3]
      · rw [if_neg h2]
        simp [h1, h2]

/-- **C104** (violated) A star made in two steps gets no new metallicity in any. -/
theorem C104_two_steps_violated {P : Type} (p q : P) : ∀ s ∈ single [p, q], s.newZ = false := by
  intro s hs
  have : single [p, q] = [⟨p, false, false⟩, ⟨q, true, false⟩] := rfl
  rw [this] at hs
  simp only [List.mem_cons, List.not_mem_nil, or_false] at hs
  rcases hs with rfl | rfl <;> rfl

example : single ["zams", "strip", "He"] = [⟨"zams", false, false⟩, ⟨"strip", true, true⟩, ⟨"He", true, false⟩] := by decide

end Verif.GridPoint
