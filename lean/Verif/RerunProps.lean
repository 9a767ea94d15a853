import Verif.Rerun
import Verif.SNModels
import Mathlib.Tactic.Ring

/-!
# Reruns and training in the post-processing pipeline: properties (C107)
-/

namespace Verif.Rerun

open Verif.Frame (isIn)

/-! ### Metallicities -/

/-- Specification: the value of a digit. -/
def dig (c : Char) : ℚ := (c.toNat : ℚ) - 48

/-- Specification: the metallicity a file `zams_zA.BCmE_…` stands for, `A.BC·10⁻ᴱ`. -/
def zOfFile : Name → Option ℚ
  | 'z' :: 'a' :: 'm' :: 's' :: '_' :: 'z' :: a :: '.' :: b :: c :: 'm' :: e :: '_' :: _ =>
    some ((dig a + dig b / 10 + dig c / 100) / 10 ^ (e.toNat - 48))
  | _ => none

/-- Specification: the metallicity in solar units a name `Ae±DD_Zsun` or `A.Be±DD_Zsun` stands for. -/
def zOfName : Name → Option ℚ
  | [a, 'e', '+', '0', '0', '_', 'Z', 's', 'u', 'n'] => some (dig a)
  | [a, 'e', '-', '0', d, '_', 'Z', 's', 'u', 'n'] => some (dig a / 10 ^ (d.toNat - 48))
  | [a, '.', b, 'e', '-', '0', d, '_', 'Z', 's', 'u', 'n'] =>
    some ((dig a + dig b / 10) / 10 ^ (d.toNat - 48))
  | _ => none

/-- For each of the supported metallicities the file of the zero-age main sequence is that of
`0.0142` times the metallicity in solar units. -/
theorem C107_zams : ∀ m ∈ zamsTable.map (·.1), ∃ z, zOfName m = some z ∧
    ∃ f ∈ zamsTable.map (·.2), zams (some m) = .ok f ∧ zOfFile f = some (142/10000 * z) := by
  have h : ∀ m ∈ zamsTable.map (·.1), (zOfName m).isSome ∧
    ∃ f ∈ zamsTable.map (·.2), zams (some m) = .ok f ∧
      zOfFile f = (zOfName m).map (142/10000 * ·) := by decide +kernel
  intro m hm
  obtain ⟨h1, f, hf, h2, h3⟩ := h m hm
  obtain ⟨z, hz⟩ := Option.isSome_iff_exists.mp h1
  exact ⟨z, hz, f, hf, h2, by rw [h3, hz]; rfl⟩

theorem firstIn_ok (T : List (Name × Name)) (m f : Name) :
    firstIn T m = .ok f → ∃ p, (p, f) ∈ T ∧ isIn p m = true := by
  induction T with
  | nil => intro h; simp [firstIn] at h
  | cons a r ih =>
    obtain ⟨p, g⟩ := a
    intro h
    unfold firstIn at h
    by_cases hp : isIn p m = true
    · rw [if_pos hp] at h
      cases h
      exact ⟨p, by simp, hp⟩
    · rw [if_neg hp] at h
      obtain ⟨q, h1, h2⟩ := ih h
      exact ⟨q, List.mem_cons_of_mem _ h1, h2⟩

theorem firstIn_err (T : List (Name × Name)) (m : Name) :
    firstIn T m = .error .value ↔ ∀ x ∈ T, isIn x.1 m = false := by
  induction T with
  | nil => simp [firstIn]
  | cons a r ih =>
    obtain ⟨p, g⟩ := a
    unfold firstIn
    by_cases hp : isIn p m = true
    · rw [if_pos hp]
      simp [hp]
    · rw [if_neg hp, ih]
      simp only [List.mem_cons, forall_eq_or_imp]
      have : isIn p m = false := by simpa using hp
      simp [this]

/-- A text without any of the eight names is refused, and a file is only given for a text with the name
in the same case. -/
theorem C107_zams_refused (m : Name) :
    (zams (some m) = .error .value ↔ ∀ x ∈ zamsTable, isIn x.1 m = false) ∧
    (∀ f, zams (some m) = .ok f → ∃ p, (p, f) ∈ zamsTable ∧ isIn p m = true) :=
  ⟨firstIn_err _ m, fun f => firstIn_ok _ m f⟩

/-- A missing metallicity, which the code means to treat as solar, raises a `TypeError`. -/
theorem C107_missing_violated : zams none = .error .type ∧
    ∀ t v, iniTable.lookup t = some (some v) → ini t none = .error .type := by
  refine ⟨rfl, fun t v h => ?_⟩
  unfold ini
  rw [h]
  rfl

/-- Metallicities are looked up as parts of the text, so that others are taken
for one of the eight: 1.2·10⁻¹ for 2·10⁻¹. -/
theorem C107_substring_violated :
    zams (some (chars! "1.2e-01_Zsun")) = zams (some (chars! "2e-01_Zsun")) ∧
    zOfName (chars! "1.2e-01_Zsun") = some (12/100) ∧
    zOfName (chars! "2e-01_Zsun") = some (2/10) := by decide +kernel

/-! ### Types of reruns -/

theorem lookup_none {β : Type} (T : List (Name × β)) (t : Name) (h : t ∉ T.map (·.1)) :
    T.lookup t = none := by
  rw [List.lookup_eq_none_iff]
  intro p hp
  have : t ≠ p.1 := fun h2 => h (h2 ▸ List.mem_map_of_mem hp)
  simpa [bne] using this

/-- The names of all types in either table. -/
def names : List Name := logicTable.map (·.1) ++ iniTable.map (·.1)

theorem types_table : ∀ t ∈ names,
    (match logic t with | .ok _ => true | .error _ => false) =
    (match iniTable.lookup t with | some (some _) => true | _ => false) := by decide +kernel

theorem types_agree (t : Name) : (∃ c, logic t = .ok c) ↔ ∃ v, iniTable.lookup t = some (some v) := by
  by_cases ht : t ∈ names
  · have h := types_table t ht
    constructor
    · rintro ⟨c, hc⟩
      rw [hc] at h
      revert h
      cases hl : iniTable.lookup t with
      | none => simp
      | some o => cases o <;> simp
    · rintro ⟨v, hv⟩
      rw [hv] at h
      revert h
      cases hl : logic t <;> simp
  · have h1 : t ∉ logicTable.map (·.1) := fun h => ht (List.mem_append_left _ h)
    have h2 : t ∉ iniTable.map (·.1) := fun h => ht (List.mem_append_right _ h)
    rw [lookup_none _ _ h2]
    unfold logic
    rw [lookup_none _ _ h1]
    simp

/-- Apart from the type `other`, the choice of the runs and the preparation of the ini
file know the same types. -/
theorem C107_types (t : Name) :
    ((∃ c, logic t = .ok c) ↔ ∃ v, iniTable.lookup t = some (some v)) ∧
    ((∃ c, logic t = .ok c) → t ∈ names) := by
  refine ⟨types_agree t, ?_⟩
  rintro ⟨c, hc⟩
  by_contra ht
  have h1 : t ∉ logicTable.map (·.1) := fun h => ht (List.mem_append_left _ h)
  unfold logic at hc
  rw [lookup_none _ _ h1] at hc
  cases hc

/-- A rerun is prepared exactly if its type has a rule for the choice of runs and the text of the metallicity
contains one of the eight names; the ini file then gets the version of the inlists of the type and the
file of the metallicity. -/
theorem C107_prepared (t m : Name) (c : Choice) (r : Option (Name × Name)) :
    rerun t (some m) = .ok (c, r) ↔
    logic t = .ok c ∧ ∃ v z, iniTable.lookup t = some (some v) ∧ zams (some m) = .ok z ∧
      r = some (v, z) := by
  constructor
  · intro h
    unfold rerun at h
    cases hl : logic t with
    | error e => rw [hl] at h; cases h
    | ok c' =>
      rw [hl] at h
      dsimp only at h
      obtain ⟨v, hv⟩ := (types_agree t).mp ⟨c', hl⟩
      unfold ini at h
      rw [hv] at h
      dsimp only at h
      cases hz : zams (some m) with
      | error e => rw [hz] at h; cases h
      | ok z =>
        rw [hz] at h
        cases h
        exact ⟨rfl, v, z, hv, rfl, rfl⟩
  · rintro ⟨h1, v, z, h2, h3, rfl⟩
    simp only [rerun, h1, ini, h2, h3]

/-- The documented type `other`, and `envelope_mass_limit`, which is given as an example for it, can never be
run: the choice of the runs refuses them. -/
theorem C107_other_violated (met : Option Name) :
    rerun (chars! "other") met = .error .value ∧
    rerun (chars! "envelope_mass_limit") met = .error .value ∧
    ini (chars! "other") met = .ok none := ⟨rfl, rfl, rfl⟩

/-- The types that add a change to the wind or the age limit choose the same runs and the same
parameters as the types without. -/
theorem C107_combined :
    ∀ x ∈ [(chars! "thermohaline_mixing"), (chars! "dedt_energy_eqn"), (chars! "dedt_hepulse")],
      logic ((chars! "LBV_wind+") ++ x) = logic x ∧
      (x ≠ (chars! "dedt_hepulse") → logic ((chars! "no_age_limit+") ++ x) = logic x) := by
  decide +kernel

/-! ### The choice of the runs -/

theorem byRun_iff (f : Run → Bool) (rs : List Run) (i : ℕ) :
    i ∈ byRun f rs ↔ ∃ r, rs[i]? = some r ∧ f r = true := by
  simp only [byRun, List.mem_map, List.mem_filter, Prod.exists, List.mem_zipIdx_iff_getElem?]
  constructor
  · rintro ⟨r, j, ⟨h1, h2⟩, rfl⟩
    exact ⟨r, h1, h2⟩
  · rintro ⟨r, h1, h2⟩
    exact ⟨r, i, ⟨h1, h2⟩, rfl⟩

/-- Specification: point `q` belongs to one of the stars of the run. -/
def Has (r : Run) (q : Point) : Prop :=
  (∃ h, r.star1 = some h ∧ q ∈ h) ∨ ∃ h, r.star2 = some h ∧ q ∈ h

theorem some1_iff (f : Point → Bool) (r : Run) : some1 f r = true ↔ ∃ q, Has r q ∧ f q = true := by
  unfold some1 Has
  cases r.star1 with
  | none =>
    cases r.star2 with
    | none => simp
    | some h => simp
  | some g =>
    cases r.star2 with
    | none => simp
    | some h =>
      simp only [Bool.or_eq_true, List.any_eq_true, Option.some.injEq, exists_eq_left']
      constructor
      · rintro (⟨q, h1, h2⟩ | ⟨q, h1, h2⟩)
        · exact ⟨q, .inl h1, h2⟩
        · exact ⟨q, .inr h1, h2⟩
      · rintro ⟨q, h1 | h1, h2⟩
        · exact .inl ⟨q, h1, h2⟩
        · exact .inr ⟨q, h1, h2⟩

/-- The runs repeated with the wind of thermally pulsing stars are those where one of the stars is, at some
time, cool, without helium in the centre and with a thin helium shell. -/
theorem C107_tpagb (rs : List Run) : ∃ l, chosen (chars! "TPAGBwind") rs = .ok l ∧
    ∀ i, i ∈ l ↔ ∃ r, rs[i]? = some r ∧ ∃ q, Has r q ∧ q.teff ≤ 12000 ∧
      q.heCenter ≤ 1/1000000 ∧ q.heCore - q.coCore ≤ 1/10 := by
  refine ⟨_, rfl, fun i => ?_⟩
  rw [byRun_iff]
  simp only [some1_iff, tpagb, Bool.and_eq_true, decide_eq_true_eq, and_assoc]

/-- The runs repeated with the wind of luminous blue variables are those where one of the stars is at some time
beyond the limit with hydrogen at its surface and none of the two stars
is ever thermally pulsing. -/
theorem C107_lbv (rs : List Run) : ∃ l, chosen (chars! "LBV_wind") rs = .ok l ∧
    ∀ i, i ∈ l ↔ ∃ r, rs[i]? = some r ∧
      (∃ q, Has r q ∧ 600000 < q.lum ∧ 10000000000 < q.rad ^ 2 * q.lum ∧ 1/10 ≤ q.surfH) ∧
      ∀ q, Has r q → q.teff ≤ 12000 → q.heCenter ≤ 1/1000000 → 1/10 < q.heCore - q.coCore := by
  refine ⟨_, rfl, fun i => ?_⟩
  rw [byRun_iff]
  refine exists_congr fun r => and_congr_right fun _ => ?_
  rw [Bool.and_eq_true, Bool.not_eq_true', Bool.eq_false_iff, ne_eq, some1_iff, some1_iff]
  refine and_congr ?_ ?_
  · simp only [lbv, Bool.and_eq_true, decide_eq_true_eq, and_assoc]
  · simp only [tpagb, Bool.and_eq_true, decide_eq_true_eq, not_exists, not_and, not_le, and_imp]

/-- A luminous blue variable. -/
def bright : Point := ⟨15000, 1000000, 200, 1/2, 1/10, 20, 5, 0⟩
/-- A thermally pulsing star. -/
def pulsing : Point := ⟨3000, 10000, 500, 7/10, 0, 6/10, 55/100, 0⟩

/-- Stars that are thermally pulsing are to be excluded, but a companion that does excludes the luminous blue
variable too. -/
theorem C107_lbv_violated :
    chosen (chars! "LBV_wind") [⟨true, none, none, none, some [bright], none, none⟩] = .ok [0] ∧
    chosen (chars! "LBV_wind")
      [⟨true, none, none, none, some [bright], some [pulsing], none⟩] = .ok [] ∧
    tpagb bright = false := by decide +kernel

/-- The runs repeated for reverse mass transfer are those where, at the same time, the first star
is inside its Roche lobe by more than 5 %, the second is not, and the first rotates above
90 % of the critical rate. -/
theorem C107_reverse (rs : List Run) : ∃ l, chosen (chars! "reverse_MT") rs = .ok l ∧
    ∀ i, i ∈ l ↔ ∃ r, rs[i]? = some r ∧ ∃ b h, r.binary = some b ∧ r.star1 = some h ∧
      ∃ k : ℕ, ∃ x y, b[k]? = some x ∧ h[k]? = some y ∧
        x.rl1 < -1/20 ∧ -1/20 < x.rl2 ∧ 9/10 < y.omega := by
  refine ⟨_, rfl, fun i => ?_⟩
  rw [byRun_iff]
  refine exists_congr fun r => and_congr_right fun _ => ?_
  unfold reverse
  cases r.binary with
  | none => simp
  | some b =>
    cases r.star1 with
    | none => simp
    | some h =>
      simp only [List.any_eq_true, Bool.and_eq_true, decide_eq_true_eq, Option.some.injEq,
        exists_and_left, exists_eq_left']
      constructor
      · rintro ⟨⟨x, y⟩, hm, ⟨h1, h2⟩, h3⟩
        obtain ⟨k, hk⟩ := List.mem_iff_getElem?.mp hm
        rw [List.getElem?_zip_eq_some] at hk
        exact ⟨k, x, hk.1, y, hk.2, h1, h2, h3⟩
      · rintro ⟨k, x, hx, y, hy, h1, h2, h3⟩
        exact ⟨(x, y), List.mem_iff_getElem?.mpr ⟨k, List.getElem?_zip_eq_some.mpr ⟨hx, hy⟩⟩,
          ⟨h1, h2⟩, h3⟩

/-- The runs repeated for the initial helium abundance are those with less than 0.96 or an unknown
abundance. -/
theorem C107_helium (rs : List Run) : ∃ l, chosen (chars! "initial_He") rs = .ok l ∧
    ∀ i, i ∈ l ↔ ∃ r, rs[i]? = some r ∧ ∀ y, r.initialY = some y → y < 24/25 := by
  refine ⟨_, rfl, fun i => ?_⟩
  rw [byRun_iff]
  refine exists_congr fun r => and_congr_right fun _ => ?_
  unfold lowHe
  cases r.initialY <;> simp

theorem byLog_spec (ms : List Name) (rs : List Run) (n : ℕ) :
    ((∃ r ∈ rs, r.dir = false) → byLog ms n rs = .error .directory) ∧
    ((∀ r ∈ rs, r.dir = true) → ∃ l, byLog ms n rs = .ok l ∧
      ∀ i, i ∈ l ↔ ∃ k r, i = n + k ∧ rs[k]? = some r ∧ ∃ ls, r.log = some ls ∧
        ∃ x ∈ ls, ∃ m ∈ ms, isIn m x = true) := by
  induction rs generalizing n with
  | nil => exact ⟨by simp, fun _ => ⟨[], rfl, by simp⟩⟩
  | cons r rs ih =>
    obtain ⟨ih1, ih2⟩ := ih (n + 1)
    constructor
    · rintro ⟨q, hq, hd⟩
      unfold byLog
      by_cases hr : r.dir = true
      · rw [if_pos hr]
        rcases List.mem_cons.mp hq with rfl | hq
        · rw [hr] at hd; cases hd
        · rw [ih1 ⟨q, hq, hd⟩]
      · rw [if_neg hr]
    · intro hall
      obtain ⟨l, hl, hm⟩ := ih2 fun q hq => hall q (List.mem_cons_of_mem _ hq)
      unfold byLog
      rw [if_pos (hall r (by simp)), hl]
      refine ⟨_, rfl, fun i => ?_⟩
      rw [List.mem_append, hm]
      constructor
      · rintro (h | ⟨k, q, rfl, h1, h2⟩)
        · cases hlog : r.log with
          | none => rw [hlog] at h; simp at h
          | some ls =>
            rw [hlog] at h
            simp only [List.mem_map, List.mem_filter, List.any_eq_true] at h
            obtain ⟨x, ⟨hx, m, hmm, hi⟩, rfl⟩ := h
            exact ⟨0, r, rfl, rfl, ls, hlog, x, hx, m, hmm, hi⟩
        · exact ⟨k + 1, q, by omega, by simpa using h1, h2⟩
      · rintro ⟨k, q, rfl, h1, ls, hlog, x, hx, m, hmm, hi⟩
        cases k with
        | zero =>
          left
          simp only [List.getElem?_cons_zero, Option.some.injEq] at h1
          subst h1
          rw [hlog]
          simp only [List.mem_map, List.mem_filter, List.any_eq_true]
          exact ⟨x, ⟨hx, m, hmm, hi⟩, rfl⟩
        | succ k =>
          right
          exact ⟨k, q, by omega, by simpa using h1, ls, hlog, x, hx, m, hmm, hi⟩

/-- The runs repeated because of a message are those with the message in some line of the
plain log; if the directory of any of the runs is missing nothing is repeated. -/
theorem C107_messages (rs : List Run) (t : Name) (ms : List Name)
    (ht : (t, ms) ∈ [((chars! "PISN"), pisnMsg), ((chars! "conv_bdy_weight"), bdyMsg)]) :
    ((∃ r ∈ rs, r.dir = false) → chosen t rs = .error .directory) ∧
    ((∀ r ∈ rs, r.dir = true) → ∃ l, chosen t rs = .ok l ∧
      ∀ i, i ∈ l ↔ ∃ r, rs[i]? = some r ∧ ∃ ls, r.log = some ls ∧
        ∃ x ∈ ls, ∃ m ∈ ms, isIn m x = true) := by
  have e : chosen t rs = byLog ms 0 rs := by
    simp only [List.mem_cons, Prod.mk.injEq, List.not_mem_nil, or_false] at ht
    rcases ht with ⟨rfl, rfl⟩ | ⟨rfl, rfl⟩ <;> rfl
  rw [e]
  refine ⟨(byLog_spec ms rs 0).1, fun h => ?_⟩
  obtain ⟨l, h1, h2⟩ := (byLog_spec ms rs 0).2 h
  refine ⟨l, h1, fun i => ?_⟩
  rw [h2]
  simp only [Nat.zero_add]
  constructor
  · rintro ⟨k, r, rfl, h⟩
    exact ⟨r, h⟩
  · rintro ⟨r, h⟩
    exact ⟨i, r, rfl, h⟩

/-- A run with a compressed log is not repeated, whatever the log says. -/
theorem C107_compressed_violated (rs : List Run) (h : ∀ r ∈ rs, r.dir = true ∧ r.log = none) :
    chosen (chars! "PISN") rs = .ok [] ∧ chosen (chars! "conv_bdy_weight") rs = .ok [] := by
  have : ∀ ms n, byLog ms n rs = .ok [] := by
    intro ms
    induction rs with
    | nil => intro n; rfl
    | cons r rs ih =>
      intro n
      unfold byLog
      rw [if_pos (h r (by simp)).1, ih (fun q hq => h q (List.mem_cons_of_mem _ hq)),
        (h r (by simp)).2]
      rfl
  exact ⟨this _ 0, this _ 0⟩

example : chosen (chars! "PISN") [⟨true, none, some [(chars! "have reached gamma1 integral limit")],
      none, none, none, none⟩] = .ok [] ∧
    chosen (chars! "PISN") [⟨true, none, none, none, none, none, none⟩,
      ⟨true, some [(chars! "x"), (chars! "have reached gamma1 integral limit 5")], none,
      none, none, none, none⟩] = .ok [1] := by decide +kernel

/-! ### Training -/

/-- The classes of mass transfer that are interpolated: stable and unstable always, no mass transfer unless
the grid starts at Roche-lobe overflow, and reverse mass transfer
unless there is a compact object. -/
theorem C107_classes (method gridType c : Name) : c ∈ classes method gridType ↔
    c = (chars! "stable_MT") ∨ c = (chars! "unstable_MT") ∨
    (c = (chars! "no_MT") ∧ isIn (chars! "_RLO") method = false) ∨
    (c = (chars! "stable_reverse_MT") ∧ isIn (chars! "CO") gridType = false) := by
  unfold classes
  cases isIn (chars! "_RLO") method <;> cases isIn (chars! "CO") gridType <;> simp [or_assoc]

/-- Every numerical quantity, apart from the model number and those of supernova models, is interpolated
if it has a value in some run, and is known to be missing otherwise; no other
quantity is either. -/
theorem C107_quantities (cols : List (Name × Col)) (hn : (cols.map (·.1)).Nodup) (k : Name)
    (c : Col) (hk : (k, c) ∈ cols) :
    (k ∈ outKeys cols ↔ k ≠ (chars! "model_number") ∧ isIn (chars! "SN_MODEL") k = false ∧
      ∃ xs, c = .num xs ∧ ∃ x, some x ∈ xs) ∧
    (k ∈ nanKeys cols ↔ k ≠ (chars! "model_number") ∧ isIn (chars! "SN_MODEL") k = false ∧
      ∃ xs, c = .num xs ∧ ∀ x, some x ∉ xs) ∧
    ¬(k ∈ outKeys cols ∧ k ∈ nanKeys cols) := by
  have huniq : ∀ d, (k, d) ∈ cols → d = c := by
    intro d hd
    have := SNModels.inj_of_nodup hn _ hd _ hk rfl
    exact (Prod.mk.inj this).2
  have hout : k ∈ outKeys cols ↔ k ≠ (chars! "model_number") ∧
      isIn (chars! "SN_MODEL") k = false ∧ ∃ xs, c = .num xs ∧ ∃ x, some x ∈ xs := by
    simp only [outKeys, List.mem_map, List.mem_filter, Prod.exists,
      Bool.and_eq_true, decide_eq_true_eq, Bool.not_eq_true']
    constructor
    · rintro ⟨k', d, ⟨hd, ⟨h1, h2⟩, h3⟩, rfl⟩
      obtain rfl := huniq d hd
      refine ⟨h1, h3, ?_⟩
      cases d with
      | text => simp at h2
      | num xs =>
        simp only [List.any_eq_true, Option.isSome_iff_exists] at h2
        obtain ⟨o, ho, x, rfl⟩ := h2
        exact ⟨xs, rfl, x, ho⟩
    · rintro ⟨h1, h3, xs, rfl, x, hx⟩
      exact ⟨k, _, ⟨hk, ⟨h1, List.any_eq_true.mpr ⟨some x, hx, rfl⟩⟩, h3⟩, rfl⟩
  have hnan : k ∈ nanKeys cols ↔ k ≠ (chars! "model_number") ∧
      isIn (chars! "SN_MODEL") k = false ∧ ∃ xs, c = .num xs ∧ ∀ x, some x ∉ xs := by
    simp only [nanKeys, List.mem_map, List.mem_filter, Prod.exists,
      Bool.and_eq_true, decide_eq_true_eq, Bool.not_eq_true']
    constructor
    · rintro ⟨k', d, ⟨hd, ⟨h1, h2⟩, h3⟩, rfl⟩
      obtain rfl := huniq d hd
      refine ⟨h1, h3, ?_⟩
      cases d with
      | text => simp at h2
      | num xs =>
        simp only [List.all_eq_true] at h2
        exact ⟨xs, rfl, fun x hx => by simpa using h2 _ hx⟩
    · rintro ⟨h1, h3, xs, rfl, hx⟩
      refine ⟨k, _, ⟨hk, ⟨h1, List.all_eq_true.mpr fun o ho => ?_⟩, h3⟩, rfl⟩
      cases o with
      | none => rfl
      | some x => exact absurd ho (hx x)
  refine ⟨hout, hnan, ?_⟩
  rintro ⟨h1, h2⟩
  obtain ⟨-, -, xs, rfl, x, hx⟩ := hout.mp h1
  obtain ⟨-, -, ys, hy, hno⟩ := hnan.mp h2
  cases hy
  exact hno x hx

/-- The numerical quantities of the first star of a supernova model are interpolated or known
to be missing. -/
theorem C107_sn_partial (model : Name) (cols : List (Name × Col)) (s : Name) (xs : List (Option ℚ))
    (h : ((chars! "S1_") ++ s, Col.num xs) ∈ cols) :
    ((∃ x, some x ∈ xs) → (chars! "S1_") ++ model ++ (chars! "_") ++ s ∈ (snKeys model cols).1) ∧
    ((∀ x, some x ∉ xs) → (chars! "S1_") ++ model ++ (chars! "_") ++ s ∈ (snKeys model cols).2) := by
  have e : (chars! "S1_") ++ model ++ (chars! "_") ++ s =
      fullKey (chars! "S1") model ((chars! "S1_") ++ s) := by simp [fullKey]
  have hp : (chars! "S1_").isPrefixOf ((chars! "S1_") ++ s) = true := by
    rw [List.isPrefixOf_iff_prefix]
    exact List.prefix_append _ _
  constructor
  · rintro ⟨x, hx⟩
    rw [e]
    exact List.mem_map.mpr ⟨_, List.mem_filter.mpr ⟨List.mem_filter.mpr ⟨h, hp⟩,
      List.any_eq_true.mpr ⟨some x, hx, rfl⟩⟩, rfl⟩
  · intro hx
    rw [e]
    refine List.mem_map.mpr ⟨_, List.mem_filter.mpr ⟨List.mem_filter.mpr ⟨h, hp⟩, ?_⟩, rfl⟩
    show (!xs.any fun x => x.isSome) = true
    rw [Bool.not_eq_true', List.any_eq_false]
    intro o ho
    cases o with
    | none => simp
    | some x => exact absurd ho (hx x)

/-- The quantities of the supernova models of the second star are never interpolated. -/
theorem C107_sn_violated (models : List Name) (cols : Name → List (Name × Col))
    (final : List (Name × Col)) (model s : Name)
    (hm : isIn (chars! "SN_MODEL") ((chars! "S2_") ++ model ++ (chars! "_") ++ s) = true) :
    (chars! "S2_") ++ model ++ (chars! "_") ++ s ∉
      outKeys final ++ nanKeys final ++
        models.flatMap fun m => (snKeys m (cols m)).1 ++ (snKeys m (cols m)).2 := by
  intro h
  simp only [List.mem_append, List.mem_flatMap, or_assoc] at h
  rcases h with h | h | ⟨m, -, h⟩
  · simp only [outKeys, List.mem_map, List.mem_filter, Bool.and_eq_true, Bool.not_eq_true'] at h
    obtain ⟨c, ⟨-, -, h2⟩, h3⟩ := h
    rw [h3] at h2
    simp only [List.append_assoc] at hm h2
    rw [hm] at h2
    cases h2
  · simp only [nanKeys, List.mem_map, List.mem_filter, Bool.and_eq_true, Bool.not_eq_true'] at h
    obtain ⟨c, ⟨-, -, h2⟩, h3⟩ := h
    rw [h3] at h2
    simp only [List.append_assoc] at hm h2
    rw [hm] at h2
    cases h2
  · simp only [snKeys, List.mem_map, fullKey] at h
    rcases h with ⟨c, -, h⟩ | ⟨c, -, h⟩ <;> simp at h

example : isIn (chars! "SN_MODEL") ((chars! "S2_") ++ (chars! "SN_MODEL_v2_01") ++ (chars! "_") ++
    (chars! "mass")) = true := by decide +kernel

example : outKeys [((chars! "age"), .num [none, some 1]), ((chars! "state"), .text),
      ((chars! "spin"), .num [none, none]), ((chars! "model_number"), .num [some 1, some 2])] =
      [(chars! "age")] ∧
    nanKeys [((chars! "age"), .num [none, some 1]), ((chars! "state"), .text),
      ((chars! "spin"), .num [none, none]), ((chars! "model_number"), .num [some 1, some 2])] =
      [(chars! "spin")] := by decide +kernel

/-- The version of the inlists is a branch and a commit of forty hexadecimal digits, and each parameter that a rerun changes is one of five. -/
theorem C107_versions :
    (∀ t v, iniTable.lookup t = some (some v) → ∃ b h, v = b ++ '-' :: h ∧ b ≠ [] ∧ h.length = 40 ∧ ∀ c ∈ h, c ∈ "0123456789abcdef".toList) ∧
    ∀ t c, logic t = .ok c → ∀ p ∈ (match c with | .flags _ n => n | .runs n => n),
      p ∈ ["opacity_max", "thermohaline_coeff", "mesh_Pgas_div_P_exponent", "max_allowed_nz", "convective_bdy_weight"].map String.toList := by
  have hmem : ∀ {A : Type} (l : List (Name × A)) (t : Name) (a : A), l.lookup t = some a → (t, a) ∈ l := by
    intro A l t a h
    induction l with
    | nil => cases h
    | cons b l ih =>
      obtain ⟨k, b⟩ := b
      rw [List.lookup_cons] at h
      by_cases e : t = k
      · subst e; simp at h; subst h; exact List.mem_cons_self
      · have : (t == k) = false := by simpa using e
        rw [this] at h
        exact List.mem_cons_of_mem _ (ih h)
  constructor
  · intro t v h
    have key : ∀ p ∈ iniTable, ∀ v ∈ p.2, v = v.take (v.length - 41) ++ '-' :: v.drop (v.length - 40) ∧ v.take (v.length - 41) ≠ [] ∧ (v.drop (v.length - 40)).length = 40 ∧
        ∀ c ∈ v.drop (v.length - 40), c ∈ "0123456789abcdef".toList := by decide +kernel
    exact ⟨_, _, key _ (hmem _ _ _ h) v rfl⟩
  · intro t c h p hp
    have key : ∀ q ∈ logicTable, ∀ c ∈ q.2, ∀ p ∈ (match c with | .flags _ n => n | .runs n => n),
      p ∈ ["opacity_max", "thermohaline_coeff", "mesh_Pgas_div_P_exponent", "max_allowed_nz", "convective_bdy_weight"].map String.toList := by decide +kernel
    unfold logic at h
    cases hl : logicTable.lookup t with
    | none => rw [hl] at h; cases h
    | some o =>
      rw [hl] at h
      cases o with
      | none => cases h
      | some c' => cases h; exact key _ (hmem _ _ _ hl) c rfl p hp

end Verif.Rerun
