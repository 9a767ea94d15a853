import Verif.Bins
import Mathlib.Data.List.GetD
import Mathlib.Tactic.Linarith
import Mathlib.Tactic.NormNum
import Mathlib.Tactic.FieldSimp
import Mathlib.Tactic.Common
import Mathlib.Tactic.Ring
/-!
Property C61: the bins of redshift and metallicity.
-/
namespace Verif.Bins

/-- The inverse of the age of the universe: defined above the age `t0` at the largest redshift of the search, and decreasing. -/
structure Cosmology (zAt : ℝ → Option ℝ) (t0 age : ℝ) : Prop where
  pos : 0 ≤ t0
  today : zAt age = some 0
  defined : ∀ t, t0 < t → t ≤ age → ∃ z, zAt t = some z
  undefined : ∀ t, t ≤ t0 → zAt t = none
  anti : ∀ s t y z, s < t → zAt s = some y → zAt t = some z → z < y

theorem tEdge_eq (age dt : ℝ) (i : ℕ) : tEdge age dt i = age - i * dt := by
  induction i with
  | zero => simp [tEdge]
  | succ i ih => rw [tEdge, ih]; push_cast; ring

theorem zList_ok {zAt : ℝ → Option ℝ} {ts zs : List ℝ} (h : zList zAt ts = .ok zs) : ts.map zAt = zs.map some := by
  induction ts generalizing zs with
  | nil => cases h; rfl
  | cons t ts ih =>
    unfold zList at h
    cases hz : zAt t with
    | none => rw [hz] at h; cases h
    | some z =>
      rw [hz] at h
      cases hr : zList zAt ts with
      | error e => rw [hr] at h; cases h
      | ok ws => rw [hr] at h; cases h; simp [hz, ih hr]

theorem zList_exists {zAt : ℝ → Option ℝ} {ts : List ℝ} (h : ∀ t ∈ ts, ∃ z, zAt t = some z) : ∃ zs, zList zAt ts = .ok zs := by
  induction ts with
  | nil => exact ⟨[], rfl⟩
  | cons t ts ih =>
    obtain ⟨z, hz⟩ := h t List.mem_cons_self
    obtain ⟨zs, hzs⟩ := ih fun t ht => h t (List.mem_cons_of_mem _ ht)
    exact ⟨z :: zs, by rw [zList, hz, hzs]⟩

theorem zList_fails {zAt : ℝ → Option ℝ} {ts : List ℝ} (t : ℝ) (ht : t ∈ ts) (h : zAt t = none) : zList zAt ts = .error .noRoot := by
  induction ts with
  | nil => cases ht
  | cons s ts ih =>
    rw [zList]
    rcases List.mem_cons.mp ht with h' | h'
    · subst h'; rw [h]
    · cases hs : zAt s with
      | none => rfl
      | some z => simp only [ih h']

theorem nBins_le {age dt : ℝ} (hdt : 0 < dt) (ha : 0 ≤ age) : nBins age dt * dt ≤ age := by
  have := Nat.floor_le (div_nonneg ha hdt.le)
  rw [le_div_iff₀ hdt] at this
  exact this

theorem zs_get {zAt : ℝ → Option ℝ} {f : ℕ → ℝ} {n : ℕ} {zs : List ℝ} (h : zList zAt ((List.range n).map f) = .ok zs) :
    zs.length = n ∧ ∀ i (hi : i < zs.length), zAt (f i) = some zs[i] := by
  have h := zList_ok h
  have hl : zs.length = n := by have := congrArg List.length h; simpa using this.symm
  refine ⟨hl, fun i hi => ?_⟩
  have := congrArg (·[i]?) h
  simp only [List.map_map, List.getElem?_map, List.getElem?_range (show i < n by omega)] at this
  rw [List.getElem?_eq_getElem hi] at this
  simpa using this

/-- C61: the redshift edges, if the oldest one is below 100: `n + 2` edges from 0 to 100, strictly increasing; between the first and the last, edge `i` is
the redshift at which the universe was `i` steps younger than today. -/
theorem C61_redshift_edges_partial (zAt : ℝ → Option ℝ) (t0 age dt : ℝ) (hC : Cosmology zAt t0 age) (hdt : 0 < dt) (ha : 0 < age)
    (hlast : t0 < age - nBins age dt * dt) (h100 : ∀ z, zAt (age - nBins age dt * dt) = some z → z < 100) :
    ∃ es, edges zAt age dt = .ok es ∧ es.length = nBins age dt + 2 ∧ es.Pairwise (· < ·) ∧ es[0]? = some 0 ∧
      es[nBins age dt + 1]? = some 100 ∧ ∀ i, i ≤ nBins age dt → ∃ z, es[i]? = some z ∧ zAt (age - i * dt) = some z := by
  have hmono : ∀ i : ℕ, i ≤ nBins age dt → age - nBins age dt * dt ≤ age - i * dt := by
    intro i hi
    have : (i : ℝ) ≤ nBins age dt := by exact_mod_cast hi
    nlinarith
  obtain ⟨zs, hzs⟩ : ∃ zs, zList zAt ((List.range (nBins age dt)).map fun i => tEdge age dt (i + 1)) = .ok zs := by
    apply zList_exists
    intro t ht
    rw [List.mem_map] at ht
    obtain ⟨i, hi, rfl⟩ := ht
    rw [List.mem_range] at hi
    rw [tEdge_eq]
    refine hC.defined _ (lt_of_lt_of_le hlast (hmono _ (by omega))) ?_
    have : (0 : ℝ) ≤ ((i + 1 : ℕ) : ℝ) * dt := by positivity
    linarith
  obtain ⟨hlen, hget⟩ := zs_get hzs
  have hz : ∀ i, i ≤ nBins age dt → ∃ z, (0 :: zs ++ [100] : List ℝ)[i]? = some z ∧ zAt (age - i * dt) = some z := by
    intro i hi
    cases i with
    | zero => exact ⟨0, by simp, by simpa using hC.today⟩
    | succ i =>
      refine ⟨zs[i]'(by omega), ?_, ?_⟩
      · rw [List.cons_append, List.getElem?_cons_succ, List.getElem?_append_left (by omega), List.getElem?_eq_getElem (by omega)]
      · have := hget i (by omega)
        rwa [tEdge_eq] at this
  have h100' : (0 :: zs ++ [100] : List ℝ)[nBins age dt + 1]? = some 100 := by
    rw [List.cons_append, List.getElem?_cons_succ, List.getElem?_append_right (by omega), hlen]; simp
  have hl : (0 :: zs ++ [100] : List ℝ).length = nBins age dt + 2 := by simp [hlen]
  refine ⟨0 :: zs ++ [100], by unfold edges; rw [hzs], hl, ?_, by simp, h100', hz⟩
  rw [List.pairwise_iff_getElem]
  intro i j hi hj hij
  rw [hl] at hi hj
  obtain ⟨y, hy, hy'⟩ := hz i (by omega)
  have ei : (0 :: zs ++ [100] : List ℝ)[i] = y := by
    rw [List.getElem?_eq_getElem (by rw [hl]; omega)] at hy; exact Option.some.inj hy
  by_cases hjl : j = nBins age dt + 1
  · have ej : (0 :: zs ++ [100] : List ℝ)[j] = 100 := by
      subst hjl
      rw [List.getElem?_eq_getElem (by rw [hl]; omega)] at h100'; exact Option.some.inj h100'
    rw [ei, ej]
    obtain ⟨w, hw⟩ : ∃ w, zAt (age - nBins age dt * dt) = some w := by
      obtain ⟨w, _, hw⟩ := hz _ le_rfl; exact ⟨w, hw⟩
    have hw100 := h100 w hw
    rcases Nat.lt_or_eq_of_le (show i ≤ nBins age dt by omega) with h | h
    · have : (i : ℝ) < nBins age dt := by exact_mod_cast h
      have := hC.anti _ _ w y (by nlinarith) hw hy'
      linarith
    · rw [h] at hy'
      rw [hw] at hy'
      cases hy'
      exact hw100
  · obtain ⟨w, hw, hw'⟩ := hz j (by omega)
    have ej : (0 :: zs ++ [100] : List ℝ)[j] = w := by
      rw [List.getElem?_eq_getElem (by rw [hl]; omega)] at hw; exact Option.some.inj hw
    rw [ei, ej]
    have : (i : ℝ) < j := by exact_mod_cast hij
    exact hC.anti _ _ w y (by nlinarith) hw' hy'

/-- C61: the centres, if the oldest one exists: one centre per bin, each strictly inside its own bin. -/
theorem C61_redshift_centers_partial (zAt : ℝ → Option ℝ) (t0 age dt : ℝ) (hC : Cosmology zAt t0 age) (hdt : 0 < dt) (ha : 0 < age)
    (hlast : t0 < age - (nBins age dt + 1 / 2) * dt) (h100 : ∀ z, zAt (age - (nBins age dt + 1 / 2) * dt) = some z → z < 100) :
    ∃ cs es, centers zAt age dt = .ok cs ∧ edges zAt age dt = .ok es ∧ cs.length + 1 = es.length ∧
      ∀ i, i < cs.length → ∃ lo c hi, es[i]? = some lo ∧ cs[i]? = some c ∧ es[i + 1]? = some hi ∧ lo < c ∧ c < hi := by
  obtain ⟨cl, hcl⟩ := hC.defined _ hlast (by
    have : (0 : ℝ) ≤ (nBins age dt + 1 / 2) * dt := by positivity
    linarith)
  have hl' : t0 < age - nBins age dt * dt := by nlinarith
  have h100e : ∀ z, zAt (age - nBins age dt * dt) = some z → z < 100 := by
    intro z hz
    have := hC.anti _ _ cl z (by nlinarith) hcl hz
    have := h100 cl hcl
    linarith
  obtain ⟨es, hes, hlen, _, _, h100', hz⟩ := C61_redshift_edges_partial zAt t0 age dt hC hdt ha hl' h100e
  obtain ⟨cs, hcs⟩ : ∃ cs, centers zAt age dt = .ok cs := by
    apply zList_exists
    intro t ht
    rw [List.mem_map] at ht
    obtain ⟨i, hi, rfl⟩ := ht
    rw [List.mem_range] at hi
    rw [tEdge_eq]
    have : (i : ℝ) ≤ nBins age dt := by exact_mod_cast (by omega : i ≤ nBins age dt)
    have h0 : (0 : ℝ) ≤ (i : ℝ) * dt := by positivity
    exact hC.defined _ (by nlinarith) (by linarith)
  obtain ⟨hclen, hcget⟩ := zs_get (f := fun i => tEdge age dt i - dt / 2) hcs
  refine ⟨cs, es, hcs, hes, by omega, fun i hi => ?_⟩
  obtain ⟨lo, hlo, hlo'⟩ := hz i (by omega)
  have hc := hcget i hi
  simp only [tEdge_eq] at hc
  have hlt1 : lo < cs[i] := hC.anti _ _ _ _ (by linarith) hc hlo'
  by_cases hlast' : i = nBins age dt
  · refine ⟨lo, cs[i], 100, hlo, List.getElem?_eq_getElem hi, by rw [hlast']; exact h100', hlt1, ?_⟩
    apply h100
    rw [← hc, hlast']
    congr 1; ring
  · obtain ⟨hi', hh, hh'⟩ := hz (i + 1) (by omega)
    refine ⟨lo, cs[i], hi', hlo, List.getElem?_eq_getElem hi, hh, hlt1, ?_⟩
    refine hC.anti _ _ _ _ ?_ hh' hc
    push_cast; linarith

/-- C61 fails: whenever the age of the universe is less than half a step above a multiple of the step, the centres cannot be computed: the last one
would lie before the Big Bang. -/
theorem C61_redshift_step_violated (zAt : ℝ → Option ℝ) (t0 age dt : ℝ) (hC : Cosmology zAt t0 age) (n : ℕ)
    (hdt : 0 < dt) (h1 : n * dt ≤ age) (h2 : age ≤ (n + 1 / 2) * dt) : centers zAt age dt = .error .noRoot := by
  have hn : nBins age dt = n := by
    unfold nBins
    rw [Nat.floor_eq_iff (by have : (0 : ℝ) ≤ n * dt := by positivity
                             exact div_nonneg (by linarith) hdt.le)]
    rw [le_div_iff₀ hdt, div_lt_iff₀ hdt]
    exact ⟨h1, by nlinarith⟩
  apply zList_fails (tEdge age dt n - dt / 2)
  · rw [List.mem_map]; exact ⟨n, by rw [List.mem_range, hn]; omega, rfl⟩
  · apply hC.undefined
    rw [tEdge_eq]
    have := hC.pos
    linarith

/-- With the age of the universe of the code, 13797.6 Myr, this concerns a step of 250 Myr. -/
example : (55 : ℕ) * (250 : ℝ) ≤ 13797.6 ∧ (13797.6 : ℝ) ≤ ((55 : ℕ) + 1 / 2) * 250 := by norm_num

/-- The default step, 100 Myr, is fine: the last centre is at 47.6 Myr. -/
example : nBins 13797.6 100 = 137 ∧ (0.5 : ℝ) < 13797.6 - ((137 : ℕ) + 1 / 2) * 100 := by
  constructor
  · unfold nBins; rw [Nat.floor_eq_iff (by norm_num)]; norm_num
  · norm_num

/-! ### Metallicity -/

theorem at_lt {c : List ℝ} (hc : c.Pairwise (· < ·)) {i j : ℕ} (hj : j < c.length) (h : i < j) : at' c i < at' c j := by
  unfold at'
  rw [List.getD_eq_getElem _ _ (by omega), List.getD_eq_getElem _ _ hj]
  exact List.pairwise_iff_getElem.mp hc i j (by omega) hj h

/-- Each centre is inside its bin. -/
theorem logEdge_around (c : List ℝ) (hc : c.Pairwise (· < ·)) (hl : 1 < c.length) (i : ℕ) (hi : i < c.length) :
    logEdge c i < at' c i ∧ at' c i < logEdge c (i + 1) := by
  constructor
  · unfold logEdge
    by_cases h0 : i = 0
    · subst h0; rw [if_pos rfl]
      have := at_lt hc hl (by omega : 0 < 1)
      linarith
    · rw [if_neg h0, if_neg (by omega)]
      have := at_lt hc hi (by omega : i - 1 < i)
      linarith
  · unfold logEdge
    rw [if_neg (by omega)]
    by_cases h1 : i + 1 = c.length
    · rw [if_pos h1]
      have e : c.length - 1 = i := by omega
      rw [e]
      have := at_lt hc hi (by omega : c.length - 2 < i)
      linarith
    · rw [if_neg h1]
      have := at_lt hc (by omega : i + 1 < c.length) (by omega : i < i + 1)
      simp only [Nat.add_sub_cancel]
      linarith

theorem sorted_logs {mets : List ℝ} (hp : ∀ m ∈ mets, 0 < m) (hn : mets.Nodup) :
    ((mets.insertionSort (· ≤ ·)).map (Real.logb 10)).Pairwise (· < ·) := by
  have h1 : (mets.insertionSort (· ≤ ·)).Pairwise (· < ·) := by
    have hs := List.pairwise_insertionSort (· ≤ ·) mets
    have hd : (mets.insertionSort (· ≤ ·)).Nodup := (List.perm_insertionSort _ _).nodup_iff.mpr hn
    exact (hs.and hd).imp fun h => lt_of_le_of_ne h.1 h.2
  rw [List.pairwise_map]
  refine h1.imp_of_mem ?_
  intro a b ha hb hab
  exact Real.logb_lt_logb (by norm_num) (hp a ((List.perm_insertionSort _ _).mem_iff.mp ha)) hab

/-- C61: for several metallicities there is one bin per metallicity; the edges increase and each metallicity lies inside its own bin.  The bins do
not depend on the order in which the metallicities are listed. -/
theorem C61_metallicity_edges (mets : List ℝ) (hp : ∀ m ∈ mets, 0 < m) (hn : mets.Nodup) (hl : 1 < mets.length) (d : DLogZ) :
    ∃ es, metEdges mets d = .ok es ∧ es.length = mets.length + 1 ∧ es.Pairwise (· < ·) ∧
      ∀ i (hi : i < mets.length), ∃ lo m hi, es[i]? = some lo ∧ (mets.insertionSort (· ≤ ·))[i]? = some m ∧ es[i + 1]? = some hi ∧ lo < m ∧ m < hi := by
  set c := (mets.insertionSort (· ≤ ·)).map (Real.logb 10) with hcdef
  have hc := sorted_logs hp hn
  rw [← hcdef] at hc
  have hlen : c.length = mets.length := by rw [hcdef, List.length_map, List.length_insertionSort]
  have he : metEdges mets d = .ok (((List.range (c.length + 1)).map (logEdge c)).map fun x => (10 : ℝ) ^ x) := by
    unfold metEdges logEdges
    rw [← hcdef]
    simp only [show 1 < c.length by omega, if_true]
  have hget : ∀ i, i < c.length + 1 → (((List.range (c.length + 1)).map (logEdge c)).map fun x => (10 : ℝ) ^ x)[i]? = some ((10 : ℝ) ^ logEdge c i) := by
    intro i hi
    rw [List.getElem?_map, List.getElem?_map, List.getElem?_range hi]; rfl
  have hat : ∀ i (hi : i < mets.length), ∃ m, (mets.insertionSort (· ≤ ·))[i]? = some m ∧ (10 : ℝ) ^ at' c i = m := by
    intro i hi
    have hi' : i < (mets.insertionSort (· ≤ ·)).length := by rw [List.length_insertionSort]; exact hi
    refine ⟨(mets.insertionSort (· ≤ ·))[i], List.getElem?_eq_getElem hi', ?_⟩
    unfold at'
    rw [List.getD_eq_getElem _ _ (by omega)]
    simp only [hcdef, List.getElem_map]
    apply Real.rpow_logb (by norm_num) (by norm_num)
    exact hp _ ((List.perm_insertionSort _ _).mem_iff.mp (List.getElem_mem hi'))
  refine ⟨_, he, by simp [hlen], ?_, ?_⟩
  · rw [List.pairwise_map, List.pairwise_map]
    have hstep : ∀ i, i < c.length → logEdge c i < logEdge c (i + 1) := fun i hi =>
      (logEdge_around c hc (by omega) i hi).1.trans (logEdge_around c hc (by omega) i hi).2
    have hmono : ∀ j, ∀ i, i < j → j < c.length + 1 → logEdge c i < logEdge c j := by
      intro j
      induction j with
      | zero => intro i hi; omega
      | succ j ih =>
        intro i hi hj
        rcases Nat.lt_or_eq_of_le (Nat.lt_succ_iff.mp hi) with h | h
        · exact (ih i h (by omega)).trans (hstep j (by omega))
        · subst h; exact hstep i (by omega)
    refine (List.pairwise_lt_range (n := c.length + 1)).imp_of_mem ?_
    intro i j hi hj hij
    rw [List.mem_range] at hj
    exact Real.rpow_lt_rpow_of_exponent_lt (by norm_num) (hmono j i hij hj)
  · intro i hi
    obtain ⟨m, hm, hm'⟩ := hat i hi
    refine ⟨_, m, _, hget i (by omega), hm, hget (i + 1) (by omega), ?_, ?_⟩
    · rw [← hm']; exact Real.rpow_lt_rpow_of_exponent_lt (by norm_num) (logEdge_around c hc (by omega) i (by omega)).1
    · rw [← hm']; exact Real.rpow_lt_rpow_of_exponent_lt (by norm_num) (logEdge_around c hc (by omega) i (by omega)).2

/-- C61: the order in which the file lists the metallicities does not matter. -/
theorem C61_metallicity_order (mets mets' : List ℝ) (h : mets.Perm mets') (d : DLogZ) : metEdges mets d = metEdges mets' d := by
  have : mets.insertionSort (· ≤ ·) = mets'.insertionSort (· ≤ ·) := by
    apply List.Perm.eq_of_pairwise (fun _ _ _ _ h1 h2 => le_antisymm h1 h2) (List.pairwise_insertionSort _ _) (List.pairwise_insertionSort _ _)
    exact ((List.perm_insertionSort _ _).trans h).trans (List.perm_insertionSort _ _).symm
  unfold metEdges
  rw [this]

/-- C61: the single metallicity.  Without a width the bin is everything between 1e-9 and 1, with a width it is symmetric in logarithm around the metallicity, and an explicit range is taken
as given, smaller end first whatever the order in which it was given. -/
theorem C61_single_metallicity (m : ℝ) (hm : 0 < m) (x a b : ℝ) :
    metEdges [m] .none = .ok [(10 : ℝ) ^ (-9 : ℝ), 1] ∧
    metEdges [m] (.width x) = .ok [m * (10 : ℝ) ^ (-(x / 2)), m * (10 : ℝ) ^ (x / 2)] ∧
    (∃ d, stored (.range [a, b]) = .ok d ∧ metEdges [m] d = .ok [(10 : ℝ) ^ min a b, (10 : ℝ) ^ max a b]) := by
  have h10 : (10 : ℝ) ^ Real.logb 10 m = m := Real.rpow_logb (by norm_num) (by norm_num) hm
  refine ⟨?_, ?_, .range [min a b, max a b], rfl, ?_⟩
  · simp [metEdges, logEdges]
  · simp only [metEdges, logEdges, List.insertionSort, List.orderedInsert, List.foldr, List.map, List.length, at', List.getD]
    simp [sub_eq_add_neg, Real.rpow_add, h10]
  · simp [metEdges, logEdges]

/-- C61: the model read back from the file gives the same bins as the one that was written for no width, a width and a range of two values in order. -/
theorem C61_model_stored (x a b : ℝ) (hab : a ≤ b) :
    stored .none = .ok .none ∧ stored (.width x) = .ok (.width x) ∧ stored (.range [a, b]) = .ok (.range [a, b]) := by
  refine ⟨rfl, rfl, ?_⟩
  simp [stored, hab]

/-- C61 fails for other values: a range of one value is read back as a width, and an integer width, which would be meaningful, cannot be stored. -/
theorem C61_model_stored_violated (x : ℝ) : stored (.range [x]) = .ok (.width x) ∧ stored .other = .error .value ∧
    ∀ m : ℝ, metEdges [m] .other = .error .type := by
  refine ⟨rfl, rfl, fun m => ?_⟩
  simp [metEdges, logEdges]

/-! ### Concrete cases -/

example : (∀ m ∈ [(0.0142 : ℝ), 0.00142, 0.0284], 0 < m) ∧ [(0.0142 : ℝ), 0.00142, 0.0284].Nodup := by
  constructor
  · intro m hm; simp at hm; rcases hm with rfl | rfl | rfl <;> norm_num
  · norm_num

/-- A cosmology that satisfies the hypotheses. -/
noncomputable def zAt0 (t : ℝ) : Option ℝ := if 0 < t then some (13797.6 / t - 1) else none
example : Cosmology zAt0 0 13797.6 where
  pos := le_refl _
  today := by unfold zAt0; rw [if_pos (by norm_num)]; norm_num
  defined := fun t h _ => ⟨_, by unfold zAt0; rw [if_pos h]⟩
  undefined := fun t h => by unfold zAt0; rw [if_neg (by linarith)]
  anti := by
    intro s t y z hst hs ht
    unfold zAt0 at hs ht
    by_cases h : 0 < s
    · rw [if_pos h] at hs; rw [if_pos (h.trans hst)] at ht
      cases hs; cases ht
      have := div_lt_div_of_pos_left (by norm_num : (0 : ℝ) < 13797.6) h hst
      linarith
    · rw [if_neg h] at hs; cases hs

end Verif.Bins
