import Verif.NormPop
import Verif.InvSampler
import Mathlib.MeasureTheory.Measure.Lebesgue.Basic
/-!
The choice of distributions on both sides of a population: what `/repo/posydon/popsyn/independent_sample.py` draws from
(`generate_orbital_periods` l.122-143, `generate_orbital_separations` l.146-216, `generate_primary_masses` l.264-314,
`generate_secondary_masses` l.317-376, `generate_binary_fraction` l.378-423 and l.95) and which densities
`/repo/posydon/popsyn/norm_pop.py` uses for the weights (`get_IMF_pdf` l.54-69, `get_mass_ratio_pdf` l.95-137, `get_binary_fraction_pdf`
l.157-165, `get_period_pdf` l.181-218), both from the same dictionary of options.

Simplifications: real numbers; one system at a time; the dictionary is a record of optional entries; of the options that can be given for one
initial mass function only `alpha` is modelled; initial mass functions with a non-positive lower limit are not refused (the source refuses masses which are not positive);
missing entries that are only read when the density is evaluated count as missing at once. The densities and the samplers are those of Distrib.lean and InvSampler.lean.
-/
namespace Verif.Laws
open Real MeasureTheory Set intervalIntegral Verif.Distrib

noncomputable section
open Classical

inductive Err
  | key
  | value
  | type

/-- The dictionary of options; `none` is an absent entry. `own s` is the entry `alpha` of the dictionary stored under the name `s`. -/
structure Kw where
  primary : Option String := none
  mmin : Option ℝ := none
  mmax : Option ℝ := none
  own : String → Option ℝ := fun _ => none
  secondary : Option String := none
  smin : Option ℝ := none
  smax : Option ℝ := none
  qmin : Option ℝ := none
  qmax : Option ℝ := none
  qslope : Option ℝ := none
  fracScheme : Option String := none
  frac : Option ℝ := none
  orbital : Option String := none
  periodScheme : Option String := none
  pmin : Option ℝ := none
  pmax : Option ℝ := none
  pslope : Option ℝ := none
  sepScheme : Option String := none
  amin : Option ℝ := none
  amax : Option ℝ := none
  amean : Option ℝ := none
  asigma : Option ℝ := none

/-- `kwargs[...]`. -/
def need {α : Type} : Option α → Except Err α
  | some a => .ok a
  | none => .error .key

/-! ### Densities of the weights, norm_pop.py -/

/-- The other public names of the module `IMFs` (IMFs.py l.7-13 and l.16): `getattr` finds them, and calling them with limits is a `TypeError`. -/
def otherNames : List String := ["ABC", "abstractmethod", "np", "quad", "inverse_sampler", "Pwarn", "IMFBase"]

/-- `get_IMF_pdf`, l.54-69. -/
def weightImf (k : Kw) : Except Err (ℝ → ℝ) := do
  let s := k.primary.getD ""
  let a ← need k.mmin
  let b ← need k.mmax
  if s ∈ otherNames then .error .type
  else if s = "Salpeter" then
    if a ≥ b then .error .value else .ok (powerImfPdf ((k.own s).getD 2.35) a b)
  else if s = "Kroupa1993" then
    if a ≥ b then .error .value else .ok (powerImfPdf ((k.own s).getD 2.7) a b)
  else if s = "Kroupa2001" then
    if a ≥ b then .error .value else .ok (kroupaPdf 0.3 1.3 2.3 0.08 0.5 a b)
  else if s = "Chabrier2003" then
    if a ≥ b then .error .value else .ok (chabrierPdf 0.22 0.57 ((k.own s).getD 2.3) 1 a b)
  else .ok (fun _ => 1 / (b - a))

/-- The checks of `FlatMassRatio.__init__`, distributions.py l.51-56. -/
def limitsOk (lo hi : ℝ) : Prop := (0 ≤ lo ∧ lo < 1) ∧ (0 < hi ∧ hi ≤ 1) ∧ lo < hi

/-- `get_mass_ratio_pdf`, l.95-137, as a function of `q` and of the primary mass. -/
def weightRatio (k : Kw) : Except Err (ℝ → ℝ → ℝ) := do
  let s ← need k.secondary
  if s = "flat_mass_ratio" ∧ k.qmin = none ∧ k.qmax = none then do
    let a ← need k.smin
    let b ← need k.smax
    .ok (fun q m1 => NormPop.flatQPdf a b q m1)
  else if s = "flat_mass_ratio" then do
    let lo ← need k.qmin
    let hi ← need k.qmax
    if limitsOk lo hi then .ok (fun q _ => flatPdf lo hi q) else .error .value
  else if s = "power_law_mass_ratio" then do
    let r ← need k.qslope
    let lo := k.qmin.getD 0.05
    let hi := k.qmax.getD 1
    if limitsOk lo hi then
      if r ≤ -1 ∧ lo = 0 then .error .value else .ok (fun q _ => powerQPdf r lo hi q)
    else .error .value
  else .ok (fun q _ => flatPdf 0 1 q)

/-- `get_binary_fraction_pdf`, l.157-165. -/
def weightFraction (k : Kw) : Except Err (Bool → ℝ) := do
  let s ← need k.fracScheme
  if s = "const" then do
    let f ← need k.frac
    .ok (fun binary => if binary then f else 1 - f)
  else .error .value

/-- `get_period_pdf`, l.181-218, as a function of `log10 P` for the schemes of periods; `K` is the constant of the third law. -/
def weightOrbit (K : ℝ) (k : Kw) : Except Err (ℝ → ℝ → ℝ → ℝ) := do
  let o ← need k.orbital
  if o = "period" then do
    let s ← need k.periodScheme
    if s = "Sana+12_period_extended" then do
      let a ← need k.pmin
      let b ← need k.pmax
      if a ≤ 0 ∨ b ≤ a then .error .value else .ok (fun lp m1 _ => sanaPdf a b m1 lp)
    else if s = "power_law" then do
      let a ← need k.pmin
      let b ← need k.pmax
      let r ← need k.pslope
      if a ≤ 0 ∨ b ≤ a then .error .value else .ok (fun lp _ _ => powerPPdf r a b lp)
    else .error .value
  else if o = "separation" then do
    let s ← need k.sepScheme
    if s = "log_uniform" then do
      let a ← need k.amin
      let b ← need k.amax
      if a ≤ 0 ∨ b ≤ a then .error .value else .ok (fun lp m1 q => NormPop.sepPeriodPdf K a b ((10 : ℝ) ^ lp) m1 q)
    else .error .value
  else .error .value

/-! ### What is drawn, independent_sample.py -/

/-- A way to draw one value: a function of a uniform number, the table of `inverse_sampler`, or `rejection_sampler` below a curve. -/
inductive Draw
  | map (g : ℝ → ℝ)
  | table (raw : ℝ → ℝ) (lo hi : ℝ) (n : ℕ)
  | reject (raw : ℝ → ℝ) (lo hi : ℝ)

/-- `generate_primary_masses`, l.264-314. -/
def drawImf (k : Kw) : Except Err Draw :=
  let a := k.mmin.getD 7
  let b := k.mmax.getD 120
  let s := k.primary.getD "Salpeter"
  if s ∉ ["Salpeter", "Kroupa1993", "Kroupa2001"] then .error .value
  else if a ≥ b then .error .value
  else if s = "Salpeter" then .ok (.map (powerImfRvs 2.35 a b))
  else if s = "Kroupa1993" then .ok (.map (powerImfRvs 2.7 a b))
  else .ok (.table (kroupaRaw 0.3 1.3 2.3 0.08 0.5 a) a b 2000)

/-- `generate_secondary_masses`, l.346-376, divided by the primary mass. -/
def drawRatio (k : Kw) (m1 : ℝ) : Except Err Draw :=
  let a := k.smin.getD 0.35
  let b := k.smax.getD 120
  let s := k.secondary.getD "flat_mass_ratio"
  if s ∉ ["flat_mass_ratio", "q=1"] then .error .value
  else if m1 < a then .error .value
  else if s = "flat_mass_ratio" then
    if limitsOk (max (a / m1) 0) (min (b / m1) 1) then .ok (.map (uniformRvs (max (a / m1) 0) (min (b / m1) 1))) else .error .value
  else .ok (.map fun _ => 1)

/-- `generate_binary_fraction`, l.398-423. -/
def drawFraction (k : Kw) (m1 : ℝ) : Except Err ℝ :=
  let s := k.fracScheme.getD "const"
  if s ∉ ["const", "Moe+17-massdependent"] then .error .value
  else if s = "const" then .ok (k.frac.getD 1)
  else .ok (if m1 > 16 then 0.94 else if m1 > 9 then 0.84 else if m1 > 5 then 0.76 else if m1 > 2 then 0.59 else 0.4)

/-- l.95: whether the system is a binary for the uniform draw `u`. -/
def isBinary (f u : ℝ) : Bool := decide (¬ u > f)

/-- `generate_orbital_periods` l.122-143 with `Sana12Period.rvs` (distributions.py l.518-540), as `log10 P`. -/
def drawPeriod (k : Kw) (m1 : ℝ) : Except Err Draw :=
  let a := k.pmin.getD 0.35
  let b := k.pmax.getD (10 ^ (3.5 : ℝ))
  let s := k.periodScheme.getD "Sana+12_period_extended"
  if s = "Sana+12_period_extended" then
    if a ≤ 0 ∨ b ≤ a then .error .value
    else if m1 ≤ 15 then .ok (.map (uniformRvs (lg a) (lg b)))
    else .ok (.reject (sanaRaw a b true) (lg a) (lg b))
  else .error .value

/-- `generate_orbital_separations`, l.146-216; `normal` stands for `LogNormalSeparation(mean, sigma, min, max).rvs`. -/
def drawSeparation (normal : ℝ → ℝ → ℝ → ℝ → ℝ → ℝ) (k : Kw) : Except Err Draw :=
  let a := k.amin.getD 5
  let b := k.amax.getD (10 ^ 5)
  let s := k.sepScheme.getD "log_uniform"
  if s = "log_uniform" then
    if a ≤ 0 ∨ b ≤ a then .error .value else .ok (.map (logUniformRvs a b))
  else if s = "log_normal" then
    if b < a then .error .value
    else
      match k.amean, k.asigma with
      | some m, some sg => .ok (.map (normal m sg a b))
      | _, _ => .error .value
  else .error .value

/-! ### Specification -/

/-- `np.linspace(lo, hi, n)`, IMFs.py l.439. -/
def grid (lo hi : ℝ) (n : ℕ) : List ℝ := (List.range n).map fun (i : ℕ) => lo + (hi - lo) * ((i : ℝ) / ((n : ℝ) - 1))

/-- The points of a curve over a grid. -/
def points (h : ℝ → ℝ) (l : List ℝ) : List (ℝ × ℝ) := l.map fun x => (x, h x)

/-- The values drawn follow the density `f` on `[lo, hi]`:
* a function of a uniform number must give the value up to which `f` has the integral `u`;
* a table must always give a value, up to which the trapezoids below `f` on the grid are the fraction `u` of all of them;
* points accepted below a curve must fall to the left of `x` in the proportion of the integral of `f` up to `x`. -/
def Follows (d : Draw) (f : ℝ → ℝ) (lo hi : ℝ) : Prop :=
  IsDensity f lo hi ∧
  match d with
  | .map g => ∀ u, 0 ≤ u → u < 1 → lo ≤ g u ∧ g u ≤ hi ∧ ∫ x in lo..g u, f x = u
  | .table raw a b n => a = lo ∧ b = hi ∧ ∀ u v, 0 ≤ u → u ≤ 1 → 0 ≤ v → v ≤ 1 →
      ∃ s, InvSampler.inverseSampler (points raw (grid a b n)) u v = .ok s ∧ lo ≤ s ∧ s ≤ hi ∧
        InvSampler.areaTo (points f (grid a b n)) s = u * InvSampler.total (points f (grid a b n))
  | .reject raw a b => a = lo ∧ b = hi ∧ ∀ x, lo ≤ x → x ≤ hi →
      (volume.prod volume) (regionBetween (fun _ => 0) raw (Ioc lo x)) =
        ENNReal.ofReal (∫ t in lo..x, f t) * (volume.prod volume) (regionBetween (fun _ => 0) raw (Ioc lo hi))

/-! ### Lemmas -/

theorem points_valid (h : ℝ → ℝ) : ∀ l : List ℝ, l.Pairwise (· < ·) → (∀ x ∈ l, 0 ≤ h x) → InvSampler.valid (points h l)
  | [], _, _ => trivial
  | [x], _, h0 => h0 x (by simp)
  | x :: y :: l, hp, h0 => by
    refine ⟨?_, h0 x (by simp), points_valid h (y :: l) (List.pairwise_cons.1 hp).2 (fun z hz => h0 z (List.mem_cons_of_mem _ hz))⟩
    exact (List.pairwise_cons.1 hp).1 y (by simp)

theorem areaTo_scale (h f : ℝ → ℝ) (c s : ℝ) : ∀ l : List ℝ, (∀ x ∈ l, h x = c * f x) →
    InvSampler.areaTo (points h l) s = c * InvSampler.areaTo (points f l) s
  | [], _ => by simp [points, InvSampler.areaTo]
  | [x], _ => by simp [points, InvSampler.areaTo]
  | x :: y :: l, hl => by
    have ih := areaTo_scale h f c s (y :: l) (fun z hz => hl z (List.mem_cons_of_mem _ hz))
    have hx := hl x (by simp)
    have hy := hl y (by simp)
    simp only [points, List.map_cons, InvSampler.areaTo] at ih ⊢
    by_cases hs : s ≤ y
    · rw [if_pos hs, if_pos hs, hx, hy]; ring
    · rw [if_neg hs, if_neg hs, ih, hx, hy]; ring

theorem total_scale (h f : ℝ → ℝ) (c : ℝ) : ∀ l : List ℝ, (∀ x ∈ l, h x = c * f x) →
    InvSampler.total (points h l) = c * InvSampler.total (points f l)
  | [], _ => by simp [points, InvSampler.total]
  | [x], _ => by simp [points, InvSampler.total]
  | x :: y :: l, hl => by
    have ih := total_scale h f c (y :: l) (fun z hz => hl z (List.mem_cons_of_mem _ hz))
    have hx := hl x (by simp)
    have hy := hl y (by simp)
    simp only [points, List.map_cons, InvSampler.total] at ih ⊢
    rw [ih, hx, hy]; ring

theorem grid_pairwise {lo hi : ℝ} (h : lo < hi) {n : ℕ} (hn : 2 ≤ n) : (grid lo hi n).Pairwise (· < ·) := by
  have hn' : (0 : ℝ) < (n : ℝ) - 1 := by
    have : (2 : ℝ) ≤ n := by exact_mod_cast hn
    linarith
  unfold grid
  rw [List.pairwise_map]
  refine List.pairwise_lt_range.imp ?_
  intro i j hij
  have hij' : (i : ℝ) < j := by exact_mod_cast hij
  have := div_lt_div_of_pos_right hij' hn'
  nlinarith

theorem grid_mem {lo hi : ℝ} (h : lo < hi) {n : ℕ} (hn : 2 ≤ n) {x : ℝ} (hx : x ∈ grid lo hi n) : lo ≤ x ∧ x ≤ hi := by
  have hn' : (0 : ℝ) < (n : ℝ) - 1 := by
    have : (2 : ℝ) ≤ n := by exact_mod_cast hn
    linarith
  unfold grid at hx
  obtain ⟨i, hi', rfl⟩ := List.mem_map.1 hx
  have hlt : i + 1 ≤ n := List.mem_range.1 hi'
  have hlt' : (i : ℝ) + 1 ≤ n := by exact_mod_cast hlt
  have h0 : (0 : ℝ) ≤ i / ((n : ℝ) - 1) := by positivity
  have h1 : (i : ℝ) / ((n : ℝ) - 1) ≤ 1 := by rw [div_le_one hn']; linarith
  constructor <;> nlinarith

/-- The initial mass function of Kroupa (2001) decreases strictly. -/
theorem kroupa_anti {a x y : ℝ} (ha : 0 < a) (hx : 0 < x) (hxy : x < y) :
    kroupaRaw 0.3 1.3 2.3 0.08 0.5 a y < kroupaRaw 0.3 1.3 2.3 0.08 0.5 a x := by
  have hy : 0 < y := hx.trans hxy
  have hc1 : (0 : ℝ) < (0.08 / a) ^ (-(0.3 : ℝ)) := by positivity
  have hc2 : (0 : ℝ) < (0.08 / a) ^ (-(0.3 : ℝ)) * (0.5 / 0.08) ^ (-(1.3 : ℝ)) := by positivity
  have anti : ∀ (c r s t : ℝ), 0 < c → 0 < r → 0 < s → s < t → (t / c) ^ (-r) < (s / c) ^ (-r) := by
    intro c r s t hc hr hs hst
    exact Real.rpow_lt_rpow_of_neg (by positivity) (div_lt_div_of_pos_right hst hc) (by linarith)
  have le1 : ∀ t, 0.08 ≤ t → ((t : ℝ) / 0.08) ^ (-(1.3 : ℝ)) ≤ 1 := by
    intro t ht
    exact Real.rpow_le_one_of_one_le_of_nonpos (by rw [le_div_iff₀ (by norm_num)]; linarith) (by norm_num)
  have le2 : ∀ t, 0.5 ≤ t → ((t : ℝ) / 0.5) ^ (-(2.3 : ℝ)) ≤ 1 := by
    intro t ht
    exact Real.rpow_le_one_of_one_le_of_nonpos (by rw [le_div_iff₀ (by norm_num)]; linarith) (by norm_num)
  simp only [kroupaRaw]
  by_cases x1 : x < 0.08
  · rw [if_pos x1]
    have hA : (0.08 / a) ^ (-(0.3 : ℝ)) < (x / a) ^ (-(0.3 : ℝ)) := anti a 0.3 x 0.08 ha (by norm_num) hx x1
    by_cases y1 : y < 0.08
    · rw [if_pos y1]; exact anti a 0.3 x y ha (by norm_num) hx hxy
    · rw [if_neg y1]
      by_cases y2 : y < 0.5
      · rw [if_pos y2]
        have := le1 y (by linarith)
        nlinarith
      · rw [if_neg y2]
        have h1 := le1 0.5 (by norm_num)
        have h2 := le2 y (by linarith)
        nlinarith
  · rw [if_neg x1, if_neg (by linarith : ¬ y < 0.08)]
    by_cases x2 : x < 0.5
    · rw [if_pos x2]
      have hA := anti 0.08 1.3 x 0.5 (by norm_num) (by norm_num) hx x2
      by_cases y2 : y < 0.5
      · rw [if_pos y2]
        exact mul_lt_mul_of_pos_left (anti 0.08 1.3 x y (by norm_num) (by norm_num) hx hxy) hc1
      · rw [if_neg y2]
        have h2 := le2 y (by linarith)
        have := mul_lt_mul_of_pos_left hA hc1
        nlinarith
    · rw [if_neg x2, if_neg (by linarith : ¬ y < 0.5)]
      exact mul_lt_mul_of_pos_left (anti 0.5 2.3 x y (by norm_num) (by norm_num) hx hxy) hc2

theorem kroupa_pos {a x : ℝ} (ha : 0 < a) (hx : 0 < x) : 0 < kroupaRaw 0.3 1.3 2.3 0.08 0.5 a x := by
  simp only [kroupaRaw]
  split_ifs <;> positivity

/-- The integral of a density made by `quad` up to a point of its support. -/
theorem quadPdf_integral (raw : ℝ → ℝ) (a b : ℝ) (left : Bool) {x : ℝ} (ha : a ≤ x) (hb : x ≤ b) :
    ∫ t in a..x, quadPdf raw a b left t = (∫ t in a..x, raw t) * (1 / ∫ t in a..b, raw t) := by
  rw [← intervalIntegral.integral_mul_const, intervalIntegral.integral_of_le ha, intervalIntegral.integral_of_le ha]
  apply setIntegral_congr_fun measurableSet_Ioc
  intro t ht
  unfold quadPdf
  dsimp only
  rw [if_pos]
  refine ⟨?_, ht.2.trans hb⟩
  cases left
  · exact ht.1
  · exact ht.1.le

/-- Half of the masses drawn from a steep power law are below the middle of the interval. -/
theorem salpeter_median {a b : ℝ} (ha : 0 < a) (hb : 3 * a ≤ b) : powerImfRvs 2.35 a b (1 / 2) < (a + b) / 2 := by
  have hbp : 0 < b := by linarith
  set p : ℝ := 1 - 2.35 with hp
  have hpn : p < 0 := by rw [hp]; norm_num
  have hAp : 0 < a ^ p := Real.rpow_pos_of_pos ha _
  have hBp : 0 < b ^ p := Real.rpow_pos_of_pos hbp _
  have hBA : b ^ p < a ^ p := Real.rpow_lt_rpow_of_neg ha (by linarith) hpn
  have e : powerImfRvs 2.35 a b (1 / 2) = ((a ^ p + b ^ p) / 2) ^ (1 / p) := by
    unfold powerImfRvs
    simp only [← hp]
    congr 1
    have h1 : b ^ p - a ^ p ≠ 0 := by linarith
    have h2 : p ≠ 0 := hpn.ne
    field_simp
    ring
  rw [e]
  have hm : 0 < (a + b) / 2 := by linarith
  have h2 : ((a + b) / 2) ^ p < (a ^ p + b ^ p) / 2 := by
    have h3 : ((a + b) / 2) ^ p ≤ (2 * a) ^ p := Real.rpow_le_rpow_of_nonpos (by linarith) (by linarith) hpn.le
    have h4 : (2 * a) ^ p = 2 ^ p * a ^ p := Real.mul_rpow (by norm_num) ha.le
    have h5 : (2 : ℝ) ^ p < 2 ^ (-1 : ℝ) := Real.rpow_lt_rpow_of_exponent_lt (by norm_num) (by rw [hp]; norm_num)
    rw [Real.rpow_neg_one] at h5
    have h7 := mul_lt_mul_of_pos_right h5 hAp
    rw [h4] at h3
    have h8 : ∀ A B : ℝ, 0 < B → (2 : ℝ)⁻¹ * A < (A + B) / 2 := by intro A B hB; linarith
    exact lt_of_le_of_lt h3 (h7.trans (h8 _ _ hBp))
  have hpos : 0 < ((a + b) / 2) ^ p := Real.rpow_pos_of_pos hm _
  have h6 : ((a ^ p + b ^ p) / 2) ^ (1 / p) < (((a + b) / 2) ^ p) ^ (1 / p) :=
    Real.rpow_lt_rpow_of_neg hpos h2 (by rw [one_div]; exact inv_lt_zero.2 hpn)
  rwa [← Real.rpow_mul hm.le, mul_one_div_cancel hpn.ne, Real.rpow_one] at h6

end

end Verif.Laws
