import Verif.Merged
import Verif.FlowChartProps
import Mathlib.Tactic.FieldSimp
import Mathlib.Tactic.Ring
/-!
C35: the merger step.
-/
namespace Verif.Merged
open Verif.FlowChart (BState Ev starHRich starHeRich starNotCO removeAll)

/-! ### Loops over attributes -/

theorem get_set_same (s : Star) (k : String) (v : Val) : (s.set k v).get k = v := by simp [Star.set]
theorem get_set_ne {s : Star} {k k' : String} {v : Val} (h : k' ≠ k) : (s.set k v).get k' = s.get k' := by simp [Star.set, h]

/-- What a loop does, if the value for one name does not depend on the other names of the list. -/
theorem loop_spec (f : Star → String → Except Err Val) : ∀ (ns : List String) (m m' : Star), ns.Nodup →
    (∀ m n k v, n ∈ ns → k ∈ ns → n ≠ k → f (m.set k v) n = f m n) → loop f ns m = .ok m' →
    m'.state = m.state ∧ (∀ k, k ∉ ns → m'.get k = m.get k) ∧ ∀ n ∈ ns, f m n = .ok (m'.get n)
  | [], m, m', _, _, h => by
    obtain rfl := Except.ok.inj h
    exact ⟨rfl, fun _ _ => rfl, fun n hn => by simp at hn⟩
  | a :: ns, m, m', hnd, hind, h => by
    simp only [loop] at h
    cases hf : f m a with
    | error e => rw [hf] at h; simp at h
    | ok v =>
      rw [hf] at h
      simp only at h
      have hnd' := (List.nodup_cons.1 hnd)
      obtain ⟨x, y, z⟩ := loop_spec f ns (m.set a v) m' hnd'.2
        (fun m n k v hn hk => hind m n k v (List.mem_cons_of_mem _ hn) (List.mem_cons_of_mem _ hk)) h
      refine ⟨x, ?_, ?_⟩
      · intro k hk
        rw [List.mem_cons, not_or] at hk
        rw [y k hk.2, get_set_ne hk.1]
      · intro n hn
        rcases List.mem_cons.1 hn with rfl | hn
        · rw [hf, y _ hnd'.1, get_set_same]
        · have hne : n ≠ a := fun he => hnd'.1 (he ▸ hn)
          rw [← z n hn]
          exact (hind m n a v (List.mem_cons_of_mem _ hn) (List.mem_cons_self ..) hne).symm

theorem loop_total (f : Star → String → Except Err Val) : ∀ (ns : List String) (m : Star), ns.Nodup →
    (∀ m n k v, n ∈ ns → k ∈ ns → n ≠ k → f (m.set k v) n = f m n) → (∀ n ∈ ns, ∃ v, f m n = .ok v) → ∃ m', loop f ns m = .ok m'
  | [], m, _, _, _ => ⟨m, rfl⟩
  | a :: ns, m, hnd, hind, h => by
    obtain ⟨v, hv⟩ := h a (List.mem_cons_self ..)
    have hnd' := (List.nodup_cons.1 hnd)
    simp only [loop, hv]
    apply loop_total f ns (m.set a v) hnd'.2
      (fun m n k v hn hk => hind m n k v (List.mem_cons_of_mem _ hn) (List.mem_cons_of_mem _ hk))
    intro n hn
    have hne : n ≠ a := fun he => hnd'.1 (he ▸ hn)
    rw [hind m n a v (List.mem_cons_of_mem _ hn) (List.mem_cons_self ..) hne]
    exact h n (List.mem_cons_of_mem _ hn)

theorem loop_congr (f g : Star → String → Except Err Val) (h : ∀ m n, f m n = g m n) : ∀ ns m, loop f ns m = loop g ns m
  | [], _ => rfl
  | a :: ns, m => by
    simp only [loop, h m a]
    cases g m a with
    | error e => rfl
    | ok v => exact loop_congr f g h ns _

/-- The attributes a weight reads. -/
def weightKeys : Weight → List String
  | .mass => ["mass"]
  | .hEnv => ["mass", "he_core_mass"]
  | .heEnv => ["he_core_mass", "co_core_mass"]
  | .key k => [k]

theorem weight_congr {s s' : Star} {w : Weight} (h : ∀ k ∈ weightKeys w, s.get k = s'.get k) : weight s w = weight s' w := by
  cases w <;> simp_all [weightKeys, weight]

theorem avg_congr {s1 s1' s2 s2' : Star} {n : String} {w1 w2 : Weight} (h1 : ∀ k ∈ weightKeys w1, s1.get k = s1'.get k)
    (h2 : ∀ k ∈ weightKeys w2, s2.get k = s2'.get k) (h3 : s1.get n = s1'.get n) (h4 : s2.get n = s2'.get n) :
    avg s1 s2 n w1 w2 = avg s1' s2' n w1 w2 := by
  unfold avg
  rw [weight_congr h1, weight_congr h2, h3, h4]

theorem mixB_spec {comp : Star} {w1 w2 : Weight} {ns : List String} {m m' : Star} (hnd : ns.Nodup) (hw : ∀ k ∈ weightKeys w1, k ∉ ns)
    (h : loop (mixB comp w1 w2) ns m = .ok m') :
    m'.state = m.state ∧ (∀ k, k ∉ ns → m'.get k = m.get k) ∧ ∀ n ∈ ns, avg m comp n w1 w2 = .ok (m'.get n) := by
  apply loop_spec _ ns m m' hnd ?_ h
  intro m n k v hn hk hne
  refine avg_congr (fun x hx => get_set_ne ?_) (fun _ _ => rfl) (get_set_ne hne) rfl
  intro he
  exact hw x hx (he ▸ hk)

theorem mixB_total {comp : Star} {w1 w2 : Weight} {ns : List String} {m : Star} (hnd : ns.Nodup) (hw : ∀ k ∈ weightKeys w1, k ∉ ns)
    (h : ∀ n ∈ ns, ∃ v, avg m comp n w1 w2 = .ok v) : ∃ m', loop (mixB comp w1 w2) ns m = .ok m' := by
  apply loop_total _ ns m hnd ?_ h
  intro m n k v hn hk hne
  refine avg_congr (fun x hx => get_set_ne ?_) (fun _ _ => rfl) (get_set_ne hne) rfl
  intro he
  exact hw x hx (he ▸ hk)

theorem sumB_spec {comp : Star} {ns : List String} {m m' : Star} (hnd : ns.Nodup) (h : loop (sumB comp) ns m = .ok m') :
    m'.state = m.state ∧ (∀ k, k ∉ ns → m'.get k = m.get k) ∧ ∀ n ∈ ns, add (m.get n) (comp.get n) = .ok (m'.get n) := by
  apply loop_spec _ ns m m' hnd ?_ h
  intro m n k v hn hk hne
  unfold sumB
  rw [get_set_ne hne]

theorem sumB_total {comp : Star} {ns : List String} {m : Star} (hnd : ns.Nodup) (h : ∀ n ∈ ns, ∃ v, add (m.get n) (comp.get n) = .ok v) :
    ∃ m', loop (sumB comp) ns m = .ok m' := by
  apply loop_total _ ns m hnd ?_ h
  intro m n k v hn hk hne
  unfold sumB
  rw [get_set_ne hne]

theorem copy_spec {other : Star} {ns : List String} {m m' : Star} (hnd : ns.Nodup) (h : loop (copy other) ns m = .ok m') :
    m'.state = m.state ∧ (∀ k, k ∉ ns → m'.get k = m.get k) ∧ ∀ n ∈ ns, m'.get n = other.get n := by
  obtain ⟨x, y, z⟩ := loop_spec _ ns m m' hnd (fun _ _ _ _ _ _ _ => rfl) h
  refine ⟨x, y, fun n hn => ?_⟩
  have := z n hn
  unfold copy at this
  exact (Except.ok.inj this).symm

/-! ### Symmetry of the mean -/

theorem mean_comm (a1 a2 m1 m2 : Val) : mean a1 a2 m1 m2 = mean a2 a1 m2 m1 := by
  cases a1 <;> cases a2 <;> cases m1 <;> cases m2 <;> simp [mean]
  rename_i a b c d
  rw [add_comm d c, add_comm (b * d)]

theorem sub_error {a b : Val} {e : Err} (h : sub a b = .error e) : e = .type := by
  cases a <;> cases b <;> simp_all [sub]

theorem weight_error {s : Star} {w : Weight} {e : Err} (h : weight s w = .error e) : e = .type := by
  cases w with
  | mass => simp [weight] at h
  | hEnv => exact sub_error h
  | heEnv => exact sub_error h
  | key k => simp [weight] at h

theorem avg_comm (s1 s2 : Star) (n : String) (w1 w2 : Weight) : avg s1 s2 n w1 w2 = avg s2 s1 n w2 w1 := by
  unfold avg
  cases h1 : weight s1 w1 with
  | error e =>
    cases h2 : weight s2 w2 with
    | error e' => simp only; rw [weight_error h1, weight_error h2]
    | ok v => rfl
  | ok u =>
    cases h2 : weight s2 w2 with
    | error e' => rfl
    | ok v => simp only; rw [mean_comm]

theorem add_comm' (a b : Val) : add a b = add b a := by
  cases a <;> cases b <;> simp [add]
  exact _root_.add_comm _ _

theorem mixC_eq (base : Star) (w1 w2 : Weight) (ns : List String) (m : Star) : loop (mixC base w1 w2) ns m = loop (mixB base w2 w1) ns m :=
  loop_congr _ _ (fun m n => avg_comm base m n w1 w2) ns m

theorem sumC_eq (base : Star) (ns : List String) (m : Star) : loop (sumC base) ns m = loop (sumB base) ns m :=
  loop_congr _ _ (fun m n => add_comm' (base.get n) (m.get n)) ns m

theorem hmsPost_eq (cfg : Cfg) (a b : Star) : prodHmsPost cfg a b = prodPostHms cfg b a := by
  unfold prodHmsPost prodPostHms
  rw [mixC_eq]
  simp only [sumC_eq]

theorem cores4_eq (a b : Star) : cores4C a b = cores4B a b := by
  unfold cores4C cores4B
  simp only [mixC_eq]
  cases ha : a.get "co_core_mass" with
  | none => cases hb : b.get "co_core_mass" with
    | none => rfl
    | nan => rfl
    | num y =>
      by_cases h0 : 0 < y <;> simp [eq0, gt0, andE, iteE, h0]
  | nan => cases hb : b.get "co_core_mass" with
    | none => rfl
    | nan => rfl
    | num y =>
      by_cases h0 : 0 < y <;> simp [eq0, gt0, andE, iteE, h0]
  | num x => cases hb : b.get "co_core_mass" with
    | none => by_cases h0 : 0 < x <;> simp [eq0, gt0, andE, iteE, h0]
    | nan => by_cases h0 : 0 < x <;> simp [eq0, gt0, andE, iteE, h0]
    | num y =>
      have hx : (x == 0) = true → decide (0 < x) = false := by intro h; simp at h; simp [h]
      have hy : (y == 0) = true → decide (0 < y) = false := by intro h; simp at h; simp [h]
      simp only [eq0, gt0]
      generalize (x == 0) = p1 at hx ⊢
      generalize decide (0 < x) = p2 at hx ⊢
      generalize (y == 0) = q1 at hy ⊢
      generalize decide (0 < y) = q2 at hy ⊢
      cases p1 <;> cases p2 <;> cases q1 <;> cases q2 <;> simp_all [andE, iteE]

theorem postHePost_eq (cfg : Cfg) (a b : Star) : prodPostHePost cfg a b = prodPostPostHe cfg b a := by
  unfold prodPostHePost prodPostPostHe
  rw [cores4_eq]
  simp only [sumC_eq]

/-- A missing mass stops a sum. -/
theorem sum_missing {comp : Star} : ∀ (ns : List String) (m : Star), ns.Nodup → (∃ k ∈ ns, m.get k = .none) → loop (sumB comp) ns m = .error .type
  | [], m, _, h => by obtain ⟨k, hk, _⟩ := h; simp at hk
  | a :: ns, m, hnd, h => by
    have hnd' := List.nodup_cons.1 hnd
    obtain ⟨k, hk, hn⟩ := h
    simp only [loop, sumB]
    cases hf : add (m.get a) (comp.get a) with
    | error e =>
      have : e = .type := by
        revert hf
        cases m.get a <;> cases comp.get a <;> simp [add]
        all_goals (intro h; exact h.symm)
      rw [this]
    | ok v =>
      simp only
      rcases List.mem_cons.1 hk with rfl | hk
      · rw [hn] at hf; simp [add] at hf
      · have hne : k ≠ a := fun he => hnd'.1 (he ▸ hk)
        exact sum_missing ns (m.set a v) hnd'.2 ⟨k, hk, by rw [get_set_ne hne]; exact hn⟩

theorem heMSPost_eq (cfg : Cfg) (a b : Star) : prodHeMSPost cfg a b = prodPostHeMS cfg b a := by
  unfold prodHeMSPost prodPostHeMS
  simp only [sumC_eq]
  by_cases hnone : b.get "co_core_mass" = .none
  · have e2 : cores2B a b = .error .type := by
      unfold cores2B
      simp [hnone, eq0, gt0, andE, iteE]
    rw [e2]
    have hs : loop (sumB a) massKeys b = .error .type := sum_missing massKeys b (by decide) ⟨"co_core_mass", by decide, hnone⟩
    have e1 : cores2C a b = .error .type ∨ cores2C a b = .ok b := by
      unfold cores2C
      simp only [hnone]
      have hf : eq0 .none = false := rfl
      rw [hf, Bool.and_false]
      cases eq0 (a.get "co_core_mass") <;> simp [gt0, andE, iteE]
    rcases e1 with e1 | e1 <;> rw [e1]
    simp only [bindE]
    rw [hs]
  · have e : cores2C a b = cores2B a b := by
      unfold cores2C cores2B
      simp only [mixC_eq]
      cases ha : a.get "co_core_mass" with
      | none => cases hb : b.get "co_core_mass" with
        | none => exact absurd hb hnone
        | nan => rfl
        | num y => by_cases h0 : 0 < y <;> simp [eq0, gt0, andE, iteE, h0]
      | nan => cases hb : b.get "co_core_mass" with
        | none => exact absurd hb hnone
        | nan => rfl
        | num y => by_cases h0 : 0 < y <;> simp [eq0, gt0, andE, iteE, h0]
      | num x => cases hb : b.get "co_core_mass" with
        | none => exact absurd hb hnone
        | nan =>
          simp only [eq0, gt0]
          generalize (x == 0) = p1
          cases p1 <;> simp [andE, iteE]
        | num y =>
          simp only [eq0, gt0]
          generalize (x == 0) = p1
          generalize decide (0 < y) = q2
          generalize (y == 0) = q1
          cases p1 <;> cases q1 <;> cases q2 <;> simp [andE, iteE]
    rw [e]

/-! ### Pairs of states -/

/-- Main-sequence star / hydrogen-rich star beyond / star without hydrogen envelope. -/
def heOnly : List SState := [.aCoreHe, .sCoreHe, .sCoreHeDep, .sCoreCDep, .sNon]
def evolved : List SState := [.hCoreHe, .hShellH, .hCoreHeDep, .hShellHe, .hCoreC, .hCoreCDep, .hNon, .aCoreH, .aShellH, .aNon]
def compact : List SState := [.WD, .NS, .BH]

/-- The pairs without outcome: compact or missing first star, missing second star, and a hydrogen main-sequence star with a star
without hydrogen envelope. -/
def unsupported (s1 s2 : SState) : Bool :=
  compact.contains s1 || s2 == .massless || (s1 == .massless && !compact.contains s2) ||
    (s1 == .hCoreH && heOnly.contains s2) || (heOnly.contains s1 && s2 == .hCoreH)

theorem mem_all (s : SState) : s ∈ FlowChart.Star.all := by cases s <;> decide

/-- Exactly the pairs above raise ModelError; every other pair reaches one of the branches. -/
theorem C35_pairs (cfg : Cfg) (base comp : Star) (s1 s2 : SState) (h1 : base.state = some s1) (h2 : comp.state = some s2) :
    (unsupported s1 s2 = true → merge cfg base comp = .error .model) ∧ (unsupported s1 s2 = false → ∃ b, branch base.state comp.state = some b) := by
  have key : ∀ s1 ∈ FlowChart.Star.all, ∀ s2 ∈ FlowChart.Star.all, unsupported s1 s2 = (branch (some s1) (some s2)).isNone := by decide +kernel
  have hk := key s1 (mem_all _) s2 (mem_all _)
  constructor
  · intro hu
    unfold merge
    rw [h1, h2]
    rw [hu] at hk
    rw [Option.isNone_iff_eq_none.1 hk.symm]
  · intro hu
    rw [h1, h2]
    rw [hu] at hk
    cases hb : branch (some s1) (some s2) with
    | none => rw [hb] at hk; simp at hk
    | some b => exact ⟨b, rfl⟩

/-- A star in a state of no list raises ModelError. -/
theorem C35_unknown_state (cfg : Cfg) (base comp : Star) (h : base.state = none ∨ comp.state = none) : merge cfg base comp = .error .model := by
  have : branch base.state comp.state = none := by
    unfold branch
    rcases h with h | h <;> rw [h] <;> simp
  unfold merge
  rw [this]

/-- The branch by classes of stars, independent of the order of the conditions. -/
theorem C35_branch_table (s1 s2 : SState) :
    (branch (some s1) (some s2) = some .hmsHms ↔ s1 = .hCoreH ∧ s2 = .hCoreH) ∧
    (branch (some s1) (some s2) = some .postHms ↔ s1 ∈ evolved ∧ s2 = .hCoreH) ∧
    (branch (some s1) (some s2) = some .hmsPost ↔ s1 = .hCoreH ∧ s2 ∈ evolved) ∧
    (branch (some s1) (some s2) = some .postPost ↔ s1 ∈ evolved ∧ s2 ∈ evolved) ∧
    (branch (some s1) (some s2) = some .postHeMS ↔ s1 ∈ evolved ∧ s2 = .sCoreHe) ∧
    (branch (some s1) (some s2) = some .heMSPost ↔ s1 = .sCoreHe ∧ s2 ∈ evolved) ∧
    (branch (some s1) (some s2) = some .postPostHe ↔ s1 ∈ evolved ∧ s2 ∈ heOnly ∧ s2 ≠ .sCoreHe) ∧
    (branch (some s1) (some s2) = some .postHePost ↔ s1 ∈ heOnly ∧ s1 ≠ .sCoreHe ∧ s2 ∈ evolved) ∧
    (branch (some s1) (some s2) = some .heHe ↔ s1 ∈ heOnly ∧ s2 ∈ heOnly) ∧
    (branch (some s1) (some s2) = some .wd ↔ s1 ∉ compact ∧ s2 = .WD) ∧
    (branch (some s1) (some s2) = some .nsbh ↔ s1 ∉ compact ∧ (s2 = .NS ∨ s2 = .BH)) := by
  revert s1 s2
  intro s1 s2
  cases s1 <;> cases s2 <;> decide +kernel

/-! ### The order of the two stars -/

/-- If one star is a hydrogen-rich star beyond the main sequence and the other one is a main-sequence star or has no hydrogen
envelope, the outcome does not depend on which of them overflowed. -/
theorem C35_order_irrelevant (cfg : Cfg) (a b : Star) (s1 s2 : SState) (h1 : a.state = some s1) (h2 : b.state = some s2)
    (hs1 : s1 ∈ evolved) (hs2 : s2 = .hCoreH ∨ s2 ∈ heOnly) : merge cfg a b = merge cfg b a := by
  have hab := C35_branch_table s1 s2
  have hba := C35_branch_table s2 s1
  unfold merge
  rw [h1, h2]
  rcases hs2 with rfl | hs2
  · rw [hab.2.1.2 ⟨hs1, rfl⟩, hba.2.2.1.2 ⟨rfl, hs1⟩]
    simp only [product, hmsPost_eq, isComp, if_true, Bool.false_eq_true, if_false]
  · by_cases he : s2 = .sCoreHe
    · rw [hab.2.2.2.2.1.2 ⟨hs1, he⟩, hba.2.2.2.2.2.1.2 ⟨he, hs1⟩]
      simp only [product, heMSPost_eq, isComp, if_true, Bool.false_eq_true, if_false]
    · rw [hab.2.2.2.2.2.2.1.2 ⟨hs1, hs2, he⟩, hba.2.2.2.2.2.2.2.1.2 ⟨hs2, he, hs1⟩]
      simp only [product, postHePost_eq, isComp, if_true, Bool.false_eq_true, if_false]

/-! ### The attributes of the product -/

/-- The attributes set to NaN in every product. -/
def erasedList : List String :=
  ["log_R", "log_L", "lg_mdot", "lg_system_mdot", "lg_wind_mdot", "log_LH", "log_LHe", "log_LZ", "log_Lnuc", "c12_c12", "surf_avg_omega",
   "surf_avg_omega_div_omega_crit", "total_moment_of_inertia", "log_total_angular_momentum", "spin", "conv_env_top_mass", "conv_env_bot_mass",
   "conv_env_top_radius", "conv_env_bot_radius", "conv_env_turnover_time_g", "conv_env_turnover_time_l_b", "conv_env_turnover_time_l_t",
   "mass_conv_reg_fortides", "thickness_conv_reg_fortides", "radius_conv_reg_fortides", "lambda_CE_1cent", "lambda_CE_10cent",
   "lambda_CE_30cent", "lambda_CE_pure_He_star_10cent", "profile"]

theorem erased_filter : starProps.filter (erased []) = erasedList := by decide +kernel

theorem erased_iff (k : String) : (starProps.contains k && erased [] k) = true ↔ k ∈ erasedList := by
  rw [← erased_filter, List.mem_filter, Bool.and_eq_true]
  simp

theorem applyNan_get (s : Star) (k : String) : (applyNan [] s).get k = if k ∈ erasedList then .nan else s.get k := by
  unfold applyNan
  simp only
  by_cases h : k ∈ erasedList
  · rw [if_pos ((erased_iff k).2 h), if_pos h]
  · rw [if_neg (fun hx => h ((erased_iff k).1 hx)), if_neg h]

theorem settle_get {cfg : Cfg} {m m' : Star} (h : settle cfg m = .ok m') (k : String) : m'.get k = if k ∈ erasedList then .nan else m.get k := by
  unfold settle at h
  cases hc : classify cfg (applyNan [] m) with
  | error e => rw [hc] at h; simp at h
  | ok st =>
    rw [hc] at h
    obtain rfl := Except.ok.inj h
    exact applyNan_get m k

theorem bindE_ok {x : Except Err Star} {f : Star → Except Err Star} {y : Star} (h : bindE x f = .ok y) : ∃ m, x = .ok m ∧ f m = .ok y := by
  cases x with
  | error e => simp [bindE] at h
  | ok m => exact ⟨m, rfl, h⟩

/-- The central abundances of a product, by the masses of the carbon-oxygen cores. -/
structure CoreOf (base comp m : Star) : Prop where
  state : m.state = base.state
  other : ∀ k, k ∉ centers → k ≠ "center_gamma" → m.get k = base.get k
  none : base.get "co_core_mass" = .num 0 → comp.get "co_core_mass" = .num 0 →
    ∀ n ∈ centers, avg base comp n (.key "he_core_mass") (.key "he_core_mass") = .ok (m.get n)
  first : ∀ x, base.get "co_core_mass" = .num x → 0 < x → comp.get "co_core_mass" = .num 0 → ∀ n ∈ centers, m.get n = base.get n
  second : ∀ y, base.get "co_core_mass" = .num 0 → comp.get "co_core_mass" = .num y → 0 < y → ∀ n ∈ centers, m.get n = comp.get n
  both : ∀ x y, base.get "co_core_mass" = .num x → 0 < x → comp.get "co_core_mass" = .num y → 0 < y →
    ∀ n ∈ centers, avg base comp n (.key "co_core_mass") (.key "co_core_mass") = .ok (m.get n)

theorem mixCenters {comp base m : Star} {k : String} (hk : k ∉ centers)
    (h : bindE (loop (mixB comp (.key k) (.key k)) centers base) gammaNan = .ok m) :
    m.state = base.state ∧ (∀ x, x ∉ centers → x ≠ "center_gamma" → m.get x = base.get x) ∧
      ∀ n ∈ centers, avg base comp n (.key k) (.key k) = .ok (m.get n) := by
  obtain ⟨c, hc, hg⟩ := bindE_ok h
  obtain rfl := Except.ok.inj hg
  obtain ⟨x, y, z⟩ := mixB_spec (by decide) (by simpa [weightKeys] using hk) hc
  refine ⟨x, fun k h1 h2 => ?_, fun n hn => ?_⟩
  · rw [get_set_ne h2, y k h1]
  · have : n ≠ "center_gamma" := by rintro rfl; revert hn; decide
    rw [get_set_ne this]
    exact z n hn

theorem copyCenters {comp base m : Star} (h : bindE (loop (copy comp) centers base) (gammaOf comp) = .ok m) :
    m.state = base.state ∧ (∀ x, x ∉ centers → x ≠ "center_gamma" → m.get x = base.get x) ∧ ∀ n ∈ centers, m.get n = comp.get n := by
  obtain ⟨c, hc, hg⟩ := bindE_ok h
  obtain rfl := Except.ok.inj hg
  obtain ⟨x, y, z⟩ := copy_spec (by decide) hc
  refine ⟨x, fun k h1 h2 => ?_, fun n hn => ?_⟩
  · rw [get_set_ne h2, y k h1]
  · have : n ≠ "center_gamma" := by rintro rfl; revert hn; decide
    rw [get_set_ne this]
    exact z n hn

theorem iteE_ok {c : Except Err Bool} {x y : Except Err Star} {m : Star} (h : iteE c x y = .ok m) :
    (c = .ok true ∧ x = .ok m) ∨ (c = .ok false ∧ y = .ok m) := by
  cases c with
  | error e => simp [iteE] at h
  | ok b => cases b with
    | true => exact Or.inl ⟨rfl, h⟩
    | false => exact Or.inr ⟨rfl, h⟩

theorem cores4B_spec {comp base m : Star} (h : cores4B comp base = .ok m) : CoreOf base comp m := by
  unfold cores4B at h
  simp only at h
  rcases iteE_ok h with ⟨c1, h⟩ | ⟨c1, h⟩
  · obtain ⟨x, y, z⟩ := mixCenters (by decide) h
    refine ⟨x, y, fun _ _ => z, ?_, ?_, ?_⟩
    · intro v hv h0 hc
      rw [hv, hc] at c1
      simp [eq0, h0.ne'] at c1
    · intro v hb hv h0
      rw [hb, hv] at c1
      simp [eq0, h0.ne'] at c1
    · intro v w hv h0 hw h1
      rw [hv, hw] at c1
      simp [eq0, h0.ne'] at c1
  · rcases iteE_ok h with ⟨c2, h⟩ | ⟨c2, h⟩
    · obtain rfl := Except.ok.inj h
      refine ⟨rfl, fun _ _ _ => rfl, ?_, fun _ _ _ _ _ _ => rfl, ?_, ?_⟩
      · intro hb hc
        rw [hb, hc] at c1
        simp [eq0] at c1
      · intro v hb hv h0
        rw [hb] at c2
        simp [gt0, andE] at c2
      · intro v w hv h0 hw h1
        rw [hv, hw] at c2
        simp [gt0, andE, h0, eq0, h1.ne'] at c2
    · rcases iteE_ok h with ⟨c3, h⟩ | ⟨c3, h⟩
      · obtain ⟨x, y, z⟩ := copyCenters h
        refine ⟨x, y, ?_, ?_, fun _ _ _ _ => z, ?_⟩
        · intro hb hc
          rw [hb, hc] at c1
          simp [eq0] at c1
        · intro v hv h0 hc
          rw [hc] at c3
          simp [gt0, andE] at c3
        · intro v w hv h0 hw h1
          rw [hv, hw] at c3
          simp [gt0, andE, h1, eq0, h0.ne'] at c3
      · rcases iteE_ok h with ⟨c4, h⟩ | ⟨c4, h⟩
        · obtain ⟨x, y, z⟩ := mixCenters (by decide) h
          refine ⟨x, y, ?_, ?_, ?_, fun _ _ _ _ _ _ => z⟩
          · intro hb hc
            rw [hb] at c4
            simp [gt0, andE] at c4
          · intro v hv h0 hc
            rw [hv, hc] at c4
            simp [gt0, andE, h0] at c4
          · intro v hb hv h0
            rw [hb] at c4
            simp [gt0, andE] at c4
        · obtain rfl := Except.ok.inj h
          refine ⟨rfl, fun _ _ _ => rfl, ?_, fun _ _ _ _ _ _ => rfl, ?_, ?_⟩
          · intro hb hc
            rw [hb, hc] at c1
            simp [eq0] at c1
          · intro v hb hv h0
            rw [hb, hv] at c3
            simp [gt0, andE, h0, eq0] at c3
          · intro v w hv h0 hw h1
            rw [hv, hw] at c4
            simp [gt0, andE, h0, h1] at c4

theorem cores2B_spec {comp base m : Star} (h : cores2B comp base = .ok m) :
    m.state = base.state ∧ (∀ k, k ∉ centers → k ≠ "center_gamma" → m.get k = base.get k) ∧
    (base.get "co_core_mass" = .num 0 → comp.get "co_core_mass" = .num 0 →
      ∀ n ∈ centers, avg base comp n (.key "he_core_mass") (.key "he_core_mass") = .ok (m.get n)) ∧
    (¬ (base.get "co_core_mass" = .num 0 ∧ comp.get "co_core_mass" = .num 0) → m = base) := by
  unfold cores2B at h
  simp only at h
  rcases iteE_ok h with ⟨c1, h⟩ | ⟨c1, h⟩
  · obtain ⟨x, y, z⟩ := mixCenters (by decide) h
    refine ⟨x, y, fun _ _ => z, fun hne => ?_⟩
    exfalso
    apply hne
    have c := Except.ok.inj c1
    rw [Bool.and_eq_true] at c
    constructor
    · have := c.1
      cases hb : base.get "co_core_mass" <;> simp_all [eq0]
    · have := c.2
      cases hb : comp.get "co_core_mass" <;> simp_all [eq0]
  · have hm : base = m := by
      rcases iteE_ok h with ⟨c2, h⟩ | ⟨c2, h⟩ <;> exact Except.ok.inj h
    subst hm
    refine ⟨rfl, fun _ _ _ => rfl, fun hb hc => ?_, fun _ => rfl⟩
    rw [hb, hc] at c1
    simp [eq0] at c1

theorem coresWD_spec {comp base m : Star} (h : coresWD comp base = .ok m) :
    m.state = base.state ∧ (∀ k, k ∉ centers → k ≠ "center_gamma" → m.get k = base.get k) ∧
    (comp.get "co_core_mass" ≠ .none → base.get "co_core_mass" = .num 0 → ∀ n ∈ centers, m.get n = comp.get n) ∧
    (∀ x, comp.get "co_core_mass" ≠ .none → base.get "co_core_mass" = .num x → 0 < x →
      ∀ n ∈ centers, avg base comp n (.key "co_core_mass") (.key "co_core_mass") = .ok (m.get n)) := by
  unfold coresWD at h
  simp only at h
  rcases iteE_ok h with ⟨c1, h⟩ | ⟨c1, h⟩
  · obtain ⟨x, y, z⟩ := copyCenters h
    refine ⟨x, y, fun _ _ => z, fun v _ hv h0 => ?_⟩
    rw [hv] at c1
    simp [eq0, h0.ne'] at c1
  · rcases iteE_ok h with ⟨c2, h⟩ | ⟨c2, h⟩
    · obtain ⟨x, y, z⟩ := mixCenters (by decide) h
      refine ⟨x, y, fun hk hb => ?_, fun _ _ _ _ => z⟩
      rw [hb] at c1
      simp [eq0, hk] at c1
    · obtain rfl := Except.ok.inj h
      refine ⟨rfl, fun _ _ _ => rfl, fun hk hb => ?_, fun v hk hv h0 => ?_⟩
      · rw [hb] at c1
        simp [eq0, hk] at c1
      · rw [hv] at c2
        simp [andE, gt0, hk, h0] at c2

/-- One product: what happens to the masses, the surface, the centre and everything else, in terms of the two stars before. -/
theorem postHms_spec {cfg : Cfg} {base comp m : Star} (h : prodPostHms cfg base comp = .ok m) :
    add (base.get "mass") (comp.get "mass") = .ok (m.get "mass") ∧ (∀ n ∈ surfaces, avg base comp n .hEnv .mass = .ok (m.get n)) ∧
    ∀ k, k ≠ "mass" → k ∉ surfaces → m.get k = if k ∈ erasedList then .nan else base.get k := by
  obtain ⟨a, ha, h⟩ := bindE_ok h
  obtain ⟨b, hb, hs⟩ := bindE_ok h
  obtain ⟨-, a1, a2⟩ := mixB_spec (by decide) (by decide) ha
  obtain ⟨-, b1, b2⟩ := sumB_spec (by decide) hb
  refine ⟨?_, ?_, ?_⟩
  · rw [settle_get hs, if_neg (by decide), ← b2 "mass" (by decide), a1 "mass" (by decide)]
  · intro n hn
    have h1 : n ∉ erasedList := by revert n; decide
    have h2 : n ∉ ["mass"] := by revert n; decide
    rw [settle_get hs, if_neg h1, b1 n h2]
    exact a2 n hn
  · intro k h1 h2
    rw [settle_get hs, b1 k (by simpa using h1), a1 k h2]

theorem sums_after {cfg : Cfg} {base comp c m : Star} (hc : ∀ k, k ∉ centers → k ≠ "center_gamma" → c.get k = base.get k)
    (h : bindE (loop (sumB comp) massKeys c) (settle cfg) = .ok m) :
    (∀ n ∈ massKeys, add (base.get n) (comp.get n) = .ok (m.get n)) ∧ (∀ n ∈ centers, m.get n = c.get n) ∧
    (∀ k, k ∉ massKeys → k ∉ centers → k ≠ "center_gamma" → m.get k = if k ∈ erasedList then .nan else base.get k) := by
  obtain ⟨b, hb, hs⟩ := bindE_ok h
  obtain ⟨-, b1, b2⟩ := sumB_spec (by decide) hb
  refine ⟨?_, ?_, ?_⟩
  · intro n hn
    have h1 : n ∉ erasedList := by revert n; decide
    have h2 : n ∉ centers := by revert n; decide
    have h3 : n ≠ "center_gamma" := by rintro rfl; revert hn; decide
    rw [settle_get hs, if_neg h1, ← b2 n hn, hc n h2 h3]
  · intro n hn
    have h1 : n ∉ erasedList := by revert n; decide
    have h2 : n ∉ massKeys := by revert n; decide
    rw [settle_get hs, if_neg h1, b1 n h2]
  · intro k h1 h2 h3
    rw [settle_get hs, b1 k h1, hc k h2 h3]

theorem postPost_spec {cfg : Cfg} {base comp m : Star} (h : prodPostPost cfg base comp = .ok m) :
    (∀ n ∈ massKeys, add (base.get n) (comp.get n) = .ok (m.get n)) ∧ (∀ n ∈ surfaces, avg base comp n .hEnv .hEnv = .ok (m.get n)) ∧
    (∃ c, CoreOf base comp c ∧ ∀ n ∈ centers, m.get n = c.get n) ∧
    ∀ k, k ∉ massKeys → k ∉ surfaces → k ∉ centers → k ≠ "center_gamma" → m.get k = if k ∈ erasedList then .nan else base.get k := by
  obtain ⟨c, hc, h⟩ := bindE_ok h
  have hc := cores4B_spec hc
  obtain ⟨a, ha, h⟩ := bindE_ok h
  obtain ⟨-, a1, a2⟩ := mixB_spec (by decide) (by decide) ha
  obtain ⟨b, hb, hs⟩ := bindE_ok h
  obtain ⟨-, b1, b2⟩ := sumB_spec (by decide) hb
  refine ⟨?_, ?_, ⟨c, hc, ?_⟩, ?_⟩
  · intro n hn
    have h1 : n ∉ erasedList := by revert n; decide
    have h2 : n ∉ centers := by revert n; decide
    have h3 : n ≠ "center_gamma" := by rintro rfl; revert hn; decide
    have h4 : n ∉ surfaces := by revert n; decide
    rw [settle_get hs, if_neg h1, ← b2 n hn, a1 n h4, hc.other n h2 h3]
  · intro n hn
    have h1 : n ∉ erasedList := by revert n; decide
    have h2 : n ∉ massKeys := by revert n; decide
    have h3 : n ∉ centers := by revert n; decide
    have h4 : n ≠ "center_gamma" := by rintro rfl; revert hn; decide
    rw [settle_get hs, if_neg h1, b1 n h2, ← a2 n hn]
    refine avg_congr ?_ (fun _ _ => rfl) (hc.other n h3 h4).symm rfl
    intro k hk
    refine (hc.other k ?_ ?_).symm
    · revert k; decide
    · rintro rfl; revert hk; decide
  · intro n hn
    have h1 : n ∉ erasedList := by revert n; decide
    have h2 : n ∉ massKeys := by revert n; decide
    have h4 : n ∉ surfaces := by revert n; decide
    rw [settle_get hs, if_neg h1, b1 n h2, a1 n h4]
  · intro k h1 h2 h3 h4
    rw [settle_get hs, b1 k h1, a1 k h2, hc.other k h3 h4]

theorem heHe_spec {cfg : Cfg} {base comp m : Star} (h : prodHeHe cfg base comp = .ok m) :
    (∀ n ∈ massKeys, add (base.get n) (comp.get n) = .ok (m.get n)) ∧
    (∃ t : Star, (∀ n ∈ massKeys, add (base.get n) (comp.get n) = .ok (t.get n)) ∧ (∀ n ∈ surfaces, t.get n = base.get n) ∧
      ∀ n ∈ surfaces, avg t comp n .heEnv .heEnv = .ok (m.get n)) ∧
    (∃ c, CoreOf base comp c ∧ ∀ n ∈ centers, m.get n = c.get n) ∧
    ∀ k, k ∉ massKeys → k ∉ surfaces → k ∉ centers → k ≠ "center_gamma" → m.get k = if k ∈ erasedList then .nan else base.get k := by
  obtain ⟨c, hc, h⟩ := bindE_ok h
  have hc := cores4B_spec hc
  obtain ⟨b, hb, h⟩ := bindE_ok h
  obtain ⟨-, b1, b2⟩ := sumB_spec (by decide) hb
  obtain ⟨a, ha, hs⟩ := bindE_ok h
  obtain ⟨-, a1, a2⟩ := mixB_spec (by decide) (by decide) ha
  have hmass : ∀ n ∈ massKeys, add (base.get n) (comp.get n) = .ok (b.get n) := by
    intro n hn
    have h2 : n ∉ centers := by revert n; decide
    have h3 : n ≠ "center_gamma" := by rintro rfl; revert hn; decide
    rw [← b2 n hn, hc.other n h2 h3]
  refine ⟨?_, ⟨b, hmass, ?_, ?_⟩, ⟨c, hc, ?_⟩, ?_⟩
  · intro n hn
    have h1 : n ∉ erasedList := by revert n; decide
    have h4 : n ∉ surfaces := by revert n; decide
    rw [settle_get hs, if_neg h1, a1 n h4, hmass n hn]
  · intro n hn
    have h2 : n ∉ massKeys := by revert n; decide
    have h3 : n ∉ centers := by revert n; decide
    have h4 : n ≠ "center_gamma" := by rintro rfl; revert hn; decide
    rw [b1 n h2, hc.other n h3 h4]
  · intro n hn
    have h1 : n ∉ erasedList := by revert n; decide
    rw [settle_get hs, if_neg h1]
    exact a2 n hn
  · intro n hn
    have h1 : n ∉ erasedList := by revert n; decide
    have h2 : n ∉ massKeys := by revert n; decide
    have h4 : n ∉ surfaces := by revert n; decide
    rw [settle_get hs, if_neg h1, a1 n h4, b1 n h2]
  · intro k h1 h2 h3 h4
    rw [settle_get hs, a1 k h2, b1 k h1, hc.other k h3 h4]

theorem wd_spec {cfg : Cfg} {base comp m : Star} (h : prodWD cfg base comp = .ok m) :
    (∀ n ∈ massKeys, add (base.get n) (comp.get "mass") = .ok (m.get n)) ∧
    (comp.get "co_core_mass" ≠ .none → base.get "co_core_mass" = .num 0 → ∀ n ∈ centers, m.get n = comp.get n) ∧
    (∀ x, comp.get "co_core_mass" ≠ .none → base.get "co_core_mass" = .num x → 0 < x →
      ∀ n ∈ centers, avg base comp n (.key "co_core_mass") (.key "co_core_mass") = .ok (m.get n)) ∧
    ∀ k, k ∉ massKeys → k ∉ centers → k ≠ "center_gamma" → m.get k = if k ∈ erasedList then .nan else base.get k := by
  obtain ⟨c, hc, h⟩ := bindE_ok h
  obtain ⟨-, c1, c2, c3⟩ := coresWD_spec hc
  obtain ⟨b, hb, hs⟩ := bindE_ok h
  have hl := loop_spec _ massKeys c b (by decide) (by
    intro m n k v hn hk hne
    simp only [get_set_ne hne]) hb
  obtain ⟨-, b1, b2⟩ := hl
  have hcen : ∀ n ∈ centers, m.get n = c.get n := by
    intro n hn
    have h1 : n ∉ erasedList := by revert n; decide
    have h2 : n ∉ massKeys := by revert n; decide
    rw [settle_get hs, if_neg h1, b1 n h2]
  refine ⟨?_, ?_, ?_, ?_⟩
  · intro n hn
    have h1 : n ∉ erasedList := by revert n; decide
    have h2 : n ∉ centers := by revert n; decide
    have h3 : n ≠ "center_gamma" := by rintro rfl; revert hn; decide
    rw [settle_get hs, if_neg h1, ← c1 n h2 h3]
    exact b2 n hn
  · intro hk hb0 n hn
    rw [hcen n hn, c2 hk hb0 n hn]
  · intro x hk hx h0 n hn
    rw [hcen n hn, c3 x hk hx h0 n hn]
  · intro k h1 h2 h3
    rw [settle_get hs, b1 k h1, c1 k h2 h3]

def extraHms : List String := ["center_gamma", "avg_c_in_c_core", "envelope_binding_energy"]

theorem hmsHms_spec {cfg : Cfg} {base comp m : Star} (h : prodHmsHms cfg base comp = .ok m) :
    (∀ x y, base.get "mass" = .num x → comp.get "mass" = .num y → m.get "mass" = .num ((x + y) * (1 - cfg.loss))) ∧
    (∀ n ∈ centers5 ++ surfaces, avg base comp n .mass .mass = .ok (m.get n)) ∧ m.state = base.state ∧
    ∀ k, k ≠ "mass" → k ∉ centers5 ++ surfaces → k ∉ extraHms → m.get k = if k ∈ erasedList then .nan else base.get k := by
  obtain ⟨a, ha, h⟩ := bindE_ok h
  obtain ⟨a0, a1, a2⟩ := mixB_spec (by decide) (by decide) ha
  have hk : ∀ k, k ∉ extraHms → (starProps.contains k && erased extraHms k) = (starProps.contains k && erased [] k) := by
    intro k hk
    unfold erased
    simp [hk]
  cases hadd : add (a.get "mass") (comp.get "mass") with
  | error e => rw [hadd] at h; simp at h
  | ok v =>
    rw [hadd] at h
    obtain rfl := Except.ok.inj h
    have hget : ∀ s : Star, ∀ k, k ∉ extraHms → (applyNan extraHms s).get k = if k ∈ erasedList then .nan else s.get k := by
      intro s k hx
      unfold applyNan
      simp only
      rw [hk k hx]
      exact applyNan_get s k
    refine ⟨?_, ?_, a0, ?_⟩
    · intro x y hx hy
      rw [a1 "mass" (by decide), hx, hy] at hadd
      have hv : v = .num (x + y) := (Except.ok.inj hadd).symm
      have := hget (a.set "mass" (v.scale (1 - cfg.loss))) "mass" (by decide)
      rw [if_neg (by decide), get_set_same] at this
      rw [hv] at this ⊢
      exact this
    · intro n hn
      have h1 : n ∉ erasedList := by revert n; decide
      have h2 : n ∉ extraHms := by revert n; decide
      have h3 : n ≠ "mass" := by rintro rfl; revert hn; decide
      rw [a2 n hn]
      have := hget (a.set "mass" (v.scale (1 - cfg.loss))) n h2
      rw [if_neg h1, get_set_ne h3] at this
      exact congrArg _ this.symm
    · intro k h1 h2 h3
      have := hget (a.set "mass" (v.scale (1 - cfg.loss))) k h3
      rw [get_set_ne h1, a1 k h2] at this
      exact this

/-! ### Masses -/

/-- The object that becomes the product, and the other one. -/
def main (b : Branch) (base comp : Star) : Star := if isComp b then comp else base
def other (b : Branch) (base comp : Star) : Star := if isComp b then base else comp

theorem merge_ok {cfg : Cfg} {base comp m r : Star} {b : Branch} (hb : branch base.state comp.state = some b) (hn : b ≠ .nsbh)
    (h : merge cfg base comp = .ok (m, r)) :
    ∃ p, product cfg base comp b = .ok p ∧ m = p.set "surf_avg_omega_div_omega_crit" (.num cfg.crit) ∧ r = massless (other b base comp) := by
  unfold merge at h
  rw [hb] at h
  cases b <;> first
    | exact absurd rfl hn
    | (simp only at h
       cases hp : product cfg base comp _ with
       | error e => rw [hp] at h; simp at h
       | ok p =>
         rw [hp] at h
         have := Prod.mk.inj (Except.ok.inj h)
         exact ⟨p, rfl, this.1.symm, this.2.symm⟩)

/-- Masses: the product has the sum of the two masses (times one minus the loss for two main-sequence stars) and the other star becomes a
massless remnant. -/
theorem C35_mass (cfg : Cfg) (base comp m r : Star) (b : Branch) (x y : ℚ) (hb : branch base.state comp.state = some b) (hn : b ≠ .nsbh)
    (hx : base.get "mass" = .num x) (hy : comp.get "mass" = .num y) (h : merge cfg base comp = .ok (m, r)) :
    m.get "mass" = .num (if b = .hmsHms then (x + y) * (1 - cfg.loss) else x + y) ∧ r.state = some .massless ∧ r.get "mass" = .num 0 := by
  obtain ⟨p, hp, rfl, rfl⟩ := merge_ok hb hn h
  refine ⟨?_, rfl, rfl⟩
  rw [get_set_ne (by decide)]
  have hadd : add (base.get "mass") (comp.get "mass") = .ok (.num (x + y)) := by rw [hx, hy]; rfl
  have hfin : ∀ v, add (base.get "mass") (comp.get "mass") = .ok v → v = .num (x + y) := by
    intro v hv
    rw [hadd] at hv
    exact (Except.ok.inj hv).symm
  have hfin' : ∀ v, add (comp.get "mass") (base.get "mass") = .ok v → v = .num (x + y) := by
    intro v hv
    rw [add_comm'] at hv
    exact hfin v hv
  have hmk : "mass" ∈ massKeys := by decide
  cases b with
  | hmsHms => exact (hmsHms_spec hp).1 x y hx hy
  | postHms => exact hfin _ (postHms_spec hp).1
  | hmsPost =>
    simp only [product, hmsPost_eq] at hp
    exact hfin' _ (postHms_spec hp).1
  | postPost => exact hfin _ ((postPost_spec hp).1 _ hmk)
  | postHeMS =>
    obtain ⟨c, hc, hs⟩ := bindE_ok hp
    exact hfin _ ((sums_after (cores2B_spec hc).2.1 hs).1 _ hmk)
  | heMSPost =>
    simp only [product, heMSPost_eq] at hp
    obtain ⟨c, hc, hs⟩ := bindE_ok hp
    exact hfin' _ ((sums_after (cores2B_spec hc).2.1 hs).1 _ hmk)
  | postPostHe =>
    obtain ⟨c, hc, hs⟩ := bindE_ok hp
    exact hfin _ ((sums_after (cores4B_spec hc).other hs).1 _ hmk)
  | postHePost =>
    simp only [product, postHePost_eq] at hp
    obtain ⟨c, hc, hs⟩ := bindE_ok hp
    exact hfin' _ ((sums_after (cores4B_spec hc).other hs).1 _ hmk)
  | heHe => exact hfin _ ((heHe_spec hp).1 _ hmk)
  | wd => exact hfin _ ((wd_spec hp).1 _ hmk)
  | nsbh => exact absurd rfl hn

/-- With a neutron star or black hole the whole mass of the star disappears: the compact object stays as it was. -/
theorem C35_compact_companion_violated (cfg : Cfg) (base comp : Star) (s1 s2 : SState) (h1 : base.state = some s1) (h2 : comp.state = some s2)
    (hs1 : s1 ∉ compact) (hs2 : s2 = .NS ∨ s2 = .BH) :
    ∃ r, merge cfg base comp = .ok (r, comp) ∧ r.state = some .massless ∧ r.get "mass" = .num 0 := by
  refine ⟨massless base, ?_, rfl, rfl⟩
  unfold merge
  rw [h1, h2, (C35_branch_table s1 s2).2.2.2.2.2.2.2.2.2.2.2 ⟨hs1, hs2⟩]

/-- Core masses: sums if both stars have a core, those of the more evolved star if the other one is on the main sequence, and every core
mass grows by the mass of a white dwarf. -/
theorem C35_core_masses (cfg : Cfg) (base comp m r : Star) (b : Branch) (k : String) (x y w : ℚ) (hk : k ∈ massKeys) (hk' : k ≠ "mass")
    (hb : branch base.state comp.state = some b) (hn : b ≠ .nsbh) (hx : base.get k = .num x) (hy : comp.get k = .num y)
    (hw : comp.get "mass" = .num w) (h : merge cfg base comp = .ok (m, r)) :
    m.get k = .num (match b with
      | .hmsHms => x
      | .postHms => x
      | .hmsPost => y
      | .wd => x + w
      | _ => x + y) := by
  obtain ⟨p, hp, rfl, rfl⟩ := merge_ok hb hn h
  have hne : k ≠ "surf_avg_omega_div_omega_crit" := by rintro rfl; revert hk; decide
  have hall : ∀ k ∈ massKeys, k ∉ erasedList ∧ k ∉ surfaces ∧ k ∉ centers5 ++ surfaces ∧ k ∉ extraHms := by decide
  obtain ⟨her, hsf, hcs, hex⟩ := hall k hk
  rw [get_set_ne hne]
  have hfin : ∀ v, add (base.get k) (comp.get k) = .ok v → v = .num (x + y) := by
    intro v hv
    rw [hx, hy] at hv
    exact (Except.ok.inj hv).symm
  have hfin' : ∀ v, add (comp.get k) (base.get k) = .ok v → v = .num (x + y) := by
    intro v hv
    rw [add_comm'] at hv
    exact hfin v hv
  cases b with
  | hmsHms =>
    rw [(hmsHms_spec hp).2.2.2 k hk' hcs hex, if_neg her, hx]
  | postHms =>
    rw [(postHms_spec hp).2.2 k hk' hsf, if_neg her, hx]
  | hmsPost =>
    simp only [product, hmsPost_eq] at hp
    rw [(postHms_spec hp).2.2 k hk' hsf, if_neg her, hy]
  | postPost => exact hfin _ ((postPost_spec hp).1 _ hk)
  | postHeMS =>
    obtain ⟨c, hc, hs⟩ := bindE_ok hp
    exact hfin _ ((sums_after (cores2B_spec hc).2.1 hs).1 _ hk)
  | heMSPost =>
    simp only [product, heMSPost_eq] at hp
    obtain ⟨c, hc, hs⟩ := bindE_ok hp
    exact hfin' _ ((sums_after (cores2B_spec hc).2.1 hs).1 _ hk)
  | postPostHe =>
    obtain ⟨c, hc, hs⟩ := bindE_ok hp
    exact hfin _ ((sums_after (cores4B_spec hc).other hs).1 _ hk)
  | postHePost =>
    simp only [product, postHePost_eq] at hp
    obtain ⟨c, hc, hs⟩ := bindE_ok hp
    exact hfin' _ ((sums_after (cores4B_spec hc).other hs).1 _ hk)
  | heHe => exact hfin _ ((heHe_spec hp).1 _ hk)
  | wd =>
    have := (wd_spec hp).1 k hk
    rw [hx, hw] at this
    exact (Except.ok.inj this).symm
  | nsbh => exact absurd rfl hn

/-! ### Abundances -/

theorem mean_ok {a1 a2 m1 m2 : ℚ} (h : m1 + m2 ≠ 0) : MeanOf a1 m1 a2 m2 (mean (.num a1) (.num a2) (.num m1) (.num m2)) := by
  simp only [mean, if_neg h]
  exact ⟨_, rfl, by field_simp⟩

theorem avg_mean {s1 s2 : Star} {n : String} {w1 w2 : Weight} {a1 a2 m1 m2 : ℚ} {v : Val} (h : avg s1 s2 n w1 w2 = .ok v)
    (h1 : s1.get n = .num a1) (h2 : s2.get n = .num a2) (hw1 : weight s1 w1 = .ok (.num m1)) (hw2 : weight s2 w2 = .ok (.num m2)) (hm : m1 + m2 ≠ 0) :
    MeanOf a1 m1 a2 m2 v := by
  unfold avg at h
  rw [hw1, hw2, h1, h2] at h
  rw [← Except.ok.inj h]
  exact mean_ok hm

/-- A mean with non-negative weights lies between the two values. -/
theorem mean_between {a1 a2 m1 m2 : ℚ} {v : Val} (h : MeanOf a1 m1 a2 m2 v) (h1 : 0 ≤ m1) (h2 : 0 ≤ m2) (hp : 0 < m1 + m2) :
    ∃ x, v = .num x ∧ min a1 a2 ≤ x ∧ x ≤ max a1 a2 := by
  obtain ⟨x, hx, he⟩ := h
  refine ⟨x, hx, ?_, ?_⟩
  · by_contra hc
    push Not at hc
    have c1 : x < a1 := lt_of_lt_of_le hc (min_le_left _ _)
    have c2 : x < a2 := lt_of_lt_of_le hc (min_le_right _ _)
    rcases eq_or_lt_of_le h1 with e | e
    · have : 0 < m2 := by linarith
      nlinarith [mul_pos this (sub_pos.2 c2)]
    · nlinarith [mul_pos e (sub_pos.2 c1), mul_nonneg h2 (sub_nonneg.2 c2.le)]
  · by_contra hc
    push Not at hc
    have c1 : a1 < x := lt_of_le_of_lt (le_max_left _ _) hc
    have c2 : a2 < x := lt_of_le_of_lt (le_max_right _ _) hc
    rcases eq_or_lt_of_le h1 with e | e
    · have : 0 < m2 := by linarith
      nlinarith [mul_pos this (sub_pos.2 c2)]
    · nlinarith [mul_pos e (sub_pos.2 c1), mul_nonneg h2 (sub_nonneg.2 c2.le)]

/-- Mass of the hydrogen envelope; the whole star on the main sequence. -/
def envelope (s : Star) (v : ℚ) : Prop :=
  if s.state = some .hCoreH then s.get "mass" = .num v else ∃ a b, s.get "mass" = .num a ∧ s.get "he_core_mass" = .num b ∧ v = a - b

/-- The surface of the product of two hydrogen-rich stars is the mean of the two surfaces, weighted by the envelopes. -/
theorem C35_surface_mixed (cfg : Cfg) (base comp m r : Star) (s1 s2 : SState) (h1 : base.state = some s1) (h2 : comp.state = some s2)
    (hs1 : s1 = .hCoreH ∨ s1 ∈ evolved) (hs2 : s2 = .hCoreH ∨ s2 ∈ evolved) (h : merge cfg base comp = .ok (m, r))
    (n : String) (hn : n ∈ surfaces) (a1 a2 e1 e2 : ℚ) (ha1 : base.get n = .num a1) (ha2 : comp.get n = .num a2)
    (he1 : envelope base e1) (he2 : envelope comp e2) (hp : 0 < e1 + e2) :
    MeanOf a1 e1 a2 e2 (m.get n) := by
  have hne : n ≠ "surf_avg_omega_div_omega_crit" := by rintro rfl; revert hn; decide
  have hms : ∀ s : Star, ∀ v, s.state = some .hCoreH → envelope s v → weight s .mass = .ok (.num v) := by
    intro s v hs hv
    unfold envelope at hv
    rw [if_pos hs] at hv
    exact congrArg _ hv
  have hps : ∀ s : Star, ∀ st v, s.state = some st → st ∈ evolved → envelope s v → weight s .hEnv = .ok (.num v) := by
    intro s st v hs hst hv
    unfold envelope at hv
    have : ¬ s.state = some .hCoreH := by
      rw [hs]
      intro hx
      have := Option.some.inj hx
      subst this
      revert hst
      decide
    rw [if_neg this] at hv
    obtain ⟨a, b, ha, hb, rfl⟩ := hv
    unfold weight
    rw [ha, hb]
    rfl
  have tab := C35_branch_table s1 s2
  rcases hs1 with rfl | hs1
  · rcases hs2 with rfl | hs2
    · obtain ⟨p, hp', rfl, -⟩ := merge_ok (by rw [h1, h2]; exact tab.1.2 ⟨rfl, rfl⟩) (by simp) h
      rw [get_set_ne hne]
      exact avg_mean ((hmsHms_spec hp').2.1 n (List.mem_append_right _ hn)) ha1 ha2 (hms _ _ h1 he1) (hms _ _ h2 he2) hp.ne'
    · obtain ⟨p, hp', rfl, -⟩ := merge_ok (by rw [h1, h2]; exact tab.2.2.1.2 ⟨rfl, hs2⟩) (by simp) h
      rw [get_set_ne hne]
      simp only [product, hmsPost_eq] at hp'
      have := (postHms_spec hp').2.1 n hn
      rw [avg_comm] at this
      exact avg_mean this ha1 ha2 (hms _ _ h1 he1) (hps _ _ _ h2 hs2 he2) hp.ne'
  · rcases hs2 with rfl | hs2
    · obtain ⟨p, hp', rfl, -⟩ := merge_ok (by rw [h1, h2]; exact tab.2.1.2 ⟨hs1, rfl⟩) (by simp) h
      rw [get_set_ne hne]
      exact avg_mean ((postHms_spec hp').2.1 n hn) ha1 ha2 (hps _ _ _ h1 hs1 he1) (hms _ _ h2 he2) hp.ne'
    · obtain ⟨p, hp', rfl, -⟩ := merge_ok (by rw [h1, h2]; exact tab.2.2.2.1.2 ⟨hs1, hs2⟩) (by simp) h
      rw [get_set_ne hne]
      exact avg_mean ((postPost_spec hp').2.1 n hn) ha1 ha2 (hps _ _ _ h1 hs1 he1) (hps _ _ _ h2 hs2 he2) hp.ne'

/-- A hydrogen-rich star keeps its surface when it swallows a star without hydrogen envelope or a white dwarf. -/
theorem C35_surface_kept (cfg : Cfg) (base comp m r : Star) (s1 s2 : SState) (h1 : base.state = some s1) (h2 : comp.state = some s2)
    (hs1 : s1 ∈ evolved) (hs2 : s2 ∈ heOnly ∨ s2 = .WD) (h : merge cfg base comp = .ok (m, r)) (n : String) (hn : n ∈ surfaces) :
    m.get n = base.get n := by
  have tab := C35_branch_table s1 s2
  have hne : n ≠ "surf_avg_omega_div_omega_crit" := by rintro rfl; revert hn; decide
  have g1 : n ∉ massKeys := by revert n; decide
  have g2 : n ∉ centers := by revert n; decide
  have g3 : n ≠ "center_gamma" := by rintro rfl; revert hn; decide
  have g4 : n ∉ erasedList := by revert n; decide
  rcases hs2 with hs2 | rfl
  · by_cases he : s2 = .sCoreHe
    · obtain ⟨p, hp', rfl, -⟩ := merge_ok (by rw [h1, h2]; exact tab.2.2.2.2.1.2 ⟨hs1, he⟩) (by simp) h
      obtain ⟨c, hc, hs⟩ := bindE_ok hp'
      rw [get_set_ne hne, (sums_after (cores2B_spec hc).2.1 hs).2.2 n g1 g2 g3, if_neg g4]
    · obtain ⟨p, hp', rfl, -⟩ := merge_ok (by rw [h1, h2]; exact tab.2.2.2.2.2.2.1.2 ⟨hs1, hs2, he⟩) (by simp) h
      obtain ⟨c, hc, hs⟩ := bindE_ok hp'
      rw [get_set_ne hne, (sums_after (cores4B_spec hc).other hs).2.2 n g1 g2 g3, if_neg g4]
  · have hc : s1 ∉ compact := by revert s1; intro s1; cases s1 <;> simp [evolved, compact]
    obtain ⟨p, hp', rfl, -⟩ := merge_ok (by rw [h1, h2]; exact tab.2.2.2.2.2.2.2.2.2.1.2 ⟨hc, rfl⟩) (by simp) h
    rw [get_set_ne hne, (wd_spec hp').2.2.2 n g1 g2 g3, if_neg g4]

/-- Two stars without hydrogen envelope: the surface is mixed after the masses were added, so that the first star is weighted with both
helium envelopes `e1 + e2` instead of its own. -/
theorem C35_helium_surface (cfg : Cfg) (base comp m r : Star) (s1 s2 : SState) (h1 : base.state = some s1) (h2 : comp.state = some s2)
    (hs1 : s1 ∈ heOnly) (hs2 : s2 ∈ heOnly) (h : merge cfg base comp = .ok (m, r)) (n : String) (hn : n ∈ surfaces)
    (a1 a2 x1 y1 x2 y2 : ℚ) (ha1 : base.get n = .num a1) (ha2 : comp.get n = .num a2) (hx1 : base.get "he_core_mass" = .num x1)
    (hy1 : base.get "co_core_mass" = .num y1) (hx2 : comp.get "he_core_mass" = .num x2) (hy2 : comp.get "co_core_mass" = .num y2)
    (hp : 0 < (x1 - y1) + (x2 - y2) + (x2 - y2)) : MeanOf a1 ((x1 - y1) + (x2 - y2)) a2 (x2 - y2) (m.get n) := by
  have hne : n ≠ "surf_avg_omega_div_omega_crit" := by rintro rfl; revert hn; decide
  obtain ⟨p, hp', rfl, -⟩ := merge_ok (by rw [h1, h2]; exact (C35_branch_table s1 s2).2.2.2.2.2.2.2.2.1.2 ⟨hs1, hs2⟩) (by simp) h
  rw [get_set_ne hne]
  obtain ⟨-, ⟨t, t1, t2, t3⟩, -⟩ := heHe_spec hp'
  have k1 := t1 "he_core_mass" (by decide)
  have k2 := t1 "co_core_mass" (by decide)
  rw [hx1, hx2] at k1
  rw [hy1, hy2] at k2
  have w1 : weight t .heEnv = .ok (.num ((x1 - y1) + (x2 - y2))) := by
    unfold weight
    rw [← Except.ok.inj k1, ← Except.ok.inj k2]
    simp only [sub]
    congr 2
    ring
  have w2 : weight comp .heEnv = .ok (.num (x2 - y2)) := by
    unfold weight
    rw [hx2, hy2]
    rfl
  exact avg_mean (t3 n hn) ((t2 n hn).trans ha1) ha2 w1 w2 hp.ne'

/-- ... which is not the mean weighted by the two envelopes, unless the surfaces agree or the companion has no envelope. -/
theorem C35_helium_surface_violated (a1 a2 e1 e2 : ℚ) (v : Val) (h2 : 0 < e2) (ha : a1 ≠ a2) (h : MeanOf a1 (e1 + e2) a2 e2 v) :
    ¬ MeanOf a1 e1 a2 e2 v := by
  rintro ⟨y, hy, h4⟩
  obtain ⟨x, hx, h3⟩ := h
  have hxy : x = y := by rw [hx] at hy; exact Val.num.inj hy
  subst hxy
  have e3 : x * e2 = a1 * e2 := by linarith
  have e4 : x = a1 := mul_right_cancel₀ h2.ne' e3
  subst e4
  have e5 : x * e2 = a2 * e2 := by linarith
  exact ha (mul_right_cancel₀ h2.ne' e5)

/-- Without a carbon-oxygen core the centre is mixed with the helium cores as weights; with one such core it is kept; two such cores are
mixed with their masses as weights. -/
theorem C35_centre (cfg : Cfg) (base comp m r : Star) (s1 s2 : SState) (h1 : base.state = some s1) (h2 : comp.state = some s2)
    (hs : (s1 ∈ evolved ∧ (s2 ∈ evolved ∨ (s2 ∈ heOnly ∧ s2 ≠ .sCoreHe))) ∨ (s1 ∈ heOnly ∧ s2 ∈ heOnly)) (h : merge cfg base comp = .ok (m, r))
    (n : String) (hn : n ∈ centers) (x1 y1 x2 y2 a1 a2 : ℚ) (hx1 : base.get "he_core_mass" = .num x1) (hx2 : comp.get "he_core_mass" = .num x2)
    (hy1 : base.get "co_core_mass" = .num y1) (hy2 : comp.get "co_core_mass" = .num y2) (ha1 : base.get n = .num a1) (ha2 : comp.get n = .num a2) :
    (y1 = 0 → y2 = 0 → 0 < x1 + x2 → MeanOf a1 x1 a2 x2 (m.get n)) ∧ (0 < y1 → y2 = 0 → m.get n = .num a1) ∧
    (y1 = 0 → 0 < y2 → m.get n = .num a2) ∧ (0 < y1 → 0 < y2 → MeanOf a1 y1 a2 y2 (m.get n)) := by
  have hne : n ≠ "surf_avg_omega_div_omega_crit" := by rintro rfl; revert hn; decide
  have hc : ∃ c, CoreOf base comp c ∧ m.get n = c.get n := by
    have tab := C35_branch_table s1 s2
    rcases hs with ⟨hs1, hs2 | ⟨hs2, he⟩⟩ | ⟨hs1, hs2⟩
    · obtain ⟨p, hp', rfl, -⟩ := merge_ok (by rw [h1, h2]; exact tab.2.2.2.1.2 ⟨hs1, hs2⟩) (by simp) h
      obtain ⟨c, hc, hk⟩ := (postPost_spec hp').2.2.1
      exact ⟨c, hc, by rw [get_set_ne hne, hk n hn]⟩
    · obtain ⟨p, hp', rfl, -⟩ := merge_ok (by rw [h1, h2]; exact tab.2.2.2.2.2.2.1.2 ⟨hs1, hs2, he⟩) (by simp) h
      obtain ⟨c, hc, hk⟩ := bindE_ok hp'
      exact ⟨c, cores4B_spec hc, by rw [get_set_ne hne, (sums_after (cores4B_spec hc).other hk).2.1 n hn]⟩
    · obtain ⟨p, hp', rfl, -⟩ := merge_ok (by rw [h1, h2]; exact tab.2.2.2.2.2.2.2.2.1.2 ⟨hs1, hs2⟩) (by simp) h
      obtain ⟨c, hc, hk⟩ := (heHe_spec hp').2.2.1
      exact ⟨c, hc, by rw [get_set_ne hne, hk n hn]⟩
  obtain ⟨c, hc, hk⟩ := hc
  rw [hk]
  refine ⟨?_, ?_, ?_, ?_⟩
  · rintro rfl rfl hp
    exact avg_mean (hc.none hy1 hy2 n hn) ha1 ha2 (congrArg _ hx1) (congrArg _ hx2) hp.ne'
  · rintro hp rfl
    rw [hc.first _ hy1 hp hy2 n hn, ha1]
  · rintro rfl hp
    rw [hc.second _ hy1 hy2 hp n hn, ha2]
  · intro p1 p2
    exact avg_mean (hc.both _ _ hy1 p1 hy2 p2 n hn) ha1 ha2 (congrArg _ hy1) (congrArg _ hy2) (by linarith)

/-- Mixing with common weights keeps the sum of abundances: if both sets add up to one, so does the mixture. -/
theorem C35_sum_of_abundances (as bs xs : List ℚ) (m1 m2 : ℚ) (hp : 0 < m1 + m2) (hl : as.length = bs.length)
    (h : xs = List.zipWith (fun a b => (a * m1 + b * m2) / (m1 + m2)) as bs) (ha : as.sum = 1) (hb : bs.sum = 1) : xs.sum = 1 := by
  have key : ∀ as bs : List ℚ, as.length = bs.length →
      (List.zipWith (fun a b => (a * m1 + b * m2) / (m1 + m2)) as bs).sum * (m1 + m2) = as.sum * m1 + bs.sum * m2 := by
    intro as
    induction as with
    | nil => intro bs hl; cases bs <;> simp_all
    | cons a as ih =>
      intro bs hl
      cases bs with
      | nil => simp at hl
      | cons b bs =>
        have := ih bs (by simpa using hl)
        simp only [List.zipWith_cons_cons, List.sum_cons, add_mul, this, div_mul_cancel₀ _ hp.ne']
        ring
  have := key as bs hl
  rw [← h, ha, hb] at this
  have h2 : (xs.sum - 1) * (m1 + m2) = 0 := by linarith
  rcases mul_eq_zero.1 h2 with h3 | h3
  · linarith
  · exact absurd h3 hp.ne'

/-! ### The state of the product -/

def burningStates : List SState := [.hCoreH, .hCoreHe, .hShellH, .hShellHe, .hCoreC, .aCoreH, .aShellH, .aCoreHe, .sCoreHe]

/-- The luminosities are set to NaN before they are "kept" and before the star is classified: no product other than that of two
main-sequence stars is in a burning state. -/
theorem C35_burning_lost_violated (cfg : Cfg) (base comp m r : Star) (b : Branch) (hb : branch base.state comp.state = some b) (hn : b ≠ .nsbh)
    (hh : b ≠ .hmsHms) (h : merge cfg base comp = .ok (m, r)) :
    m.get "log_LHe" = .nan ∧ m.get "log_LZ" = .nan ∧ ∀ s, m.state = some s → s ∉ burningStates := by
  obtain ⟨p, hp, rfl, rfl⟩ := merge_ok hb hn h
  have key : ∃ q, settle cfg q = .ok p := by
    have t : ∀ (x : Except Err Star) (f : Star → Except Err Star), bindE x f = .ok p → ∃ q, f q = .ok p := by
      intro x f hx
      obtain ⟨q, -, hq⟩ := bindE_ok hx
      exact ⟨q, hq⟩
    cases b with
    | hmsHms => exact absurd rfl hh
    | nsbh => exact absurd rfl hn
    | postHms => obtain ⟨q, hq⟩ := t _ _ hp; exact t _ _ hq
    | hmsPost => obtain ⟨q, hq⟩ := t _ _ hp; exact t _ _ hq
    | postPost => obtain ⟨q, hq⟩ := t _ _ hp; obtain ⟨q, hq⟩ := t _ _ hq; exact t _ _ hq
    | postHeMS => obtain ⟨q, hq⟩ := t _ _ hp; exact t _ _ hq
    | heMSPost => obtain ⟨q, hq⟩ := t _ _ hp; exact t _ _ hq
    | postPostHe => obtain ⟨q, hq⟩ := t _ _ hp; exact t _ _ hq
    | postHePost => obtain ⟨q, hq⟩ := t _ _ hp; exact t _ _ hq
    | heHe => obtain ⟨q, hq⟩ := t _ _ hp; obtain ⟨q, hq⟩ := t _ _ hq; exact t _ _ hq
    | wd => obtain ⟨q, hq⟩ := t _ _ hp; exact t _ _ hq
  obtain ⟨q, hq⟩ := key
  refine ⟨?_, ?_, ?_⟩
  · rw [get_set_ne (by decide), settle_get hq, if_pos (by decide)]
  · rw [get_set_ne (by decide), settle_get hq, if_pos (by decide)]
  · intro s hs
    have hst : p.state = some s := hs
    unfold settle at hq
    cases hc : classify cfg (applyNan [] q) with
    | error e => rw [hc] at hq; simp at hq
    | ok st =>
      rw [hc] at hq
      obtain rfl := Except.ok.inj hq
      simp only at hst
      subst hst
      unfold classify at hc
      by_cases hcond : (((applyNan [] q).get "surface_h1").q.isSome &&
        ["center_h1", "center_he4", "center_c12", "log_LH", "log_LHe", "log_Lnuc"].any (fun k => decide ((applyNan [] q).get k = .none))) = true
      · rw [if_pos hcond] at hc; simp at hc
      rw [if_neg hcond] at hc
      have hc := Except.ok.inj hc
      have hLH : (inputs (applyNan [] q)).logLH = none := by
        unfold inputs
        simp only
        rw [applyNan_get, if_pos (by decide)]
        rfl
      have hLHe : (inputs (applyNan [] q)).logLHe = none := by
        unfold inputs
        simp only
        rw [applyNan_get, if_pos (by decide)]
        rfl
      generalize inputs (applyNan [] q) = i at hc hLH hLHe
      have hb1 : StarState.burns cfg.rel i.logLH i.logLnuc = false := by rw [hLH]; rfl
      have hb2 : StarState.burns cfg.rel i.logLHe i.logLnuc = false := by rw [hLHe]; rfl
      unfold StarState.inferNormal at hc
      cases hsf : i.surfaceH with
      | none => rw [hsf] at hc; simp [ofState] at hc
      | some sf =>
        rw [hsf] at hc
        simp only [hb1, hb2] at hc
        generalize (if sf > 1 / 100 then StarState.Rich.Hrich
          else if StarState.lt (some (cfg.rnd sf)) (i.centerH.map cfg.rnd) = true then StarState.Rich.accreted else StarState.Rich.stripped) = rich at hc
        generalize StarState.gt i.centerH (1 / 100) = g1 at hc
        generalize StarState.gt i.centerHe (1 / 100) = g2 at hc
        generalize StarState.gt i.centerC (1 / 100) = g3 at hc
        revert hc
        cases rich <;> cases g1 <;> cases g2 <;> cases g3 <;> simp [ofState] <;> rintro rfl <;> decide

/-- A helium-burning giant that swallows a main-sequence star becomes `H-rich_non_burning`. -/
theorem C35_giant_not_burning_violated (cfg : Cfg) (base comp m r : Star) (h1 : base.state = some .hCoreHe) (h2 : comp.state = some .hCoreH)
    (h : merge cfg base comp = .ok (m, r)) (x y c s : ℚ) (hx : base.get "center_h1" = .num x) (hy : base.get "center_he4" = .num y)
    (hc : base.get "center_c12" = .num c) (hxs : x ≤ 1 / 100) (hys : 1 / 100 < y) (hs : m.get "surface_h1" = .num s) (hss : 1 / 100 < s) :
    m.state = some .hNon := by
  obtain ⟨p, hp, rfl, rfl⟩ := merge_ok (by rw [h1, h2]; exact (C35_branch_table .hCoreHe .hCoreH).2.1.2 ⟨by decide, rfl⟩) (by simp) h
  have hcen := (postHms_spec hp).2.2
  rw [get_set_ne (by decide)] at hs
  show p.state = some .hNon
  obtain ⟨a, ha, hp⟩ := bindE_ok hp
  obtain ⟨b, hb, hq⟩ := bindE_ok hp
  have hget := settle_get hq
  unfold settle at hq
  cases hcl : classify cfg (applyNan [] b) with
  | error e => rw [hcl] at hq; simp at hq
  | ok st =>
    rw [hcl] at hq
    obtain rfl := Except.ok.inj hq
    simp only
    simp only at hs hcen
    have e1 : (applyNan [] b).get "center_h1" = .num x := by
      rw [hcen "center_h1" (by decide) (by decide), if_neg (by decide), hx]
    have e2 : (applyNan [] b).get "center_he4" = .num y := by
      rw [hcen "center_he4" (by decide) (by decide), if_neg (by decide), hy]
    have e3 : (applyNan [] b).get "center_c12" = .num c := by
      rw [hcen "center_c12" (by decide) (by decide), if_neg (by decide), hc]
    have l1 : (applyNan [] b).get "log_LH" = .nan := by rw [applyNan_get, if_pos (by decide)]
    have l2 : (applyNan [] b).get "log_LHe" = .nan := by rw [applyNan_get, if_pos (by decide)]
    have l3 : (applyNan [] b).get "log_Lnuc" = .nan := by rw [applyNan_get, if_pos (by decide)]
    unfold classify at hcl
    rw [if_neg (by simp [e1, e2, e3, l1, l2, l3])] at hcl
    rw [← Except.ok.inj hcl]
    unfold StarState.inferNormal inputs
    simp only [hs, e1, e2, e3, l1, l2, l3, Val.q]
    have hx' : StarState.gt (some x) (1 / 100) = false := by simp [StarState.gt]; linarith
    have hy' : StarState.gt (some y) (1 / 100) = true := by simp [StarState.gt]; linarith
    have g0 : ∀ t, StarState.gt none t = false := fun _ => rfl
    rw [if_pos hss, hx', hy']
    simp [StarState.burns, g0, ofState]

/-- The total masses of hydrogen and helium (and the core radii) are not touched: they stay those of one of the two stars. -/
theorem C35_total_hydrogen_stale_violated (cfg : Cfg) (base comp m r : Star) (b : Branch) (k : String)
    (hk : k ∈ ["total_mass_h1", "total_mass_he4", "he_core_radius", "c_core_radius", "o_core_radius", "co_core_radius"])
    (hb : branch base.state comp.state = some b) (hn : b ≠ .nsbh) (h : merge cfg base comp = .ok (m, r)) :
    m.get k = (main b base comp).get k := by
  obtain ⟨p, hp, rfl, rfl⟩ := merge_ok hb hn h
  have g0 : k ≠ "surf_avg_omega_div_omega_crit" := by rintro rfl; revert hk; decide
  have g1 : k ∉ massKeys := by revert k; decide
  have g2 : k ∉ centers := by revert k; decide
  have g3 : k ≠ "center_gamma" := by rintro rfl; revert hk; decide
  have g4 : k ∉ erasedList := by revert k; decide
  have g5 : k ∉ surfaces := by revert k; decide
  have g6 : k ≠ "mass" := by rintro rfl; revert hk; decide
  have g7 : k ∉ centers5 ++ surfaces := by revert k; decide
  have g8 : k ∉ extraHms := by revert k; decide
  rw [get_set_ne g0]
  cases b with
  | hmsHms => rw [(hmsHms_spec hp).2.2.2 k g6 g7 g8, if_neg g4]; rfl
  | postHms => rw [(postHms_spec hp).2.2 k g6 g5, if_neg g4]; rfl
  | hmsPost =>
    simp only [product, hmsPost_eq] at hp
    rw [(postHms_spec hp).2.2 k g6 g5, if_neg g4]; rfl
  | postPost => rw [(postPost_spec hp).2.2.2 k g1 g5 g2 g3, if_neg g4]; rfl
  | postHeMS =>
    obtain ⟨c, hc, hs⟩ := bindE_ok hp
    rw [(sums_after (cores2B_spec hc).2.1 hs).2.2 k g1 g2 g3, if_neg g4]; rfl
  | heMSPost =>
    simp only [product, heMSPost_eq] at hp
    obtain ⟨c, hc, hs⟩ := bindE_ok hp
    rw [(sums_after (cores2B_spec hc).2.1 hs).2.2 k g1 g2 g3, if_neg g4]; rfl
  | postPostHe =>
    obtain ⟨c, hc, hs⟩ := bindE_ok hp
    rw [(sums_after (cores4B_spec hc).other hs).2.2 k g1 g2 g3, if_neg g4]; rfl
  | postHePost =>
    simp only [product, postHePost_eq] at hp
    obtain ⟨c, hc, hs⟩ := bindE_ok hp
    rw [(sums_after (cores4B_spec hc).other hs).2.2 k g1 g2 g3, if_neg g4]; rfl
  | heHe => rw [(heHe_spec hp).2.2.2 k g1 g5 g2 g3, if_neg g4]; rfl
  | wd => rw [(wd_spec hp).2.2.2 k g1 g2 g3, if_neg g4]; rfl
  | nsbh => exact absurd rfl hn

/-! ### The step -/

/-- Exchanging the two stars exchanges the result. -/
theorem C35_mirror (cfg : Cfg) (b : Binary) : call cfg b.mirror = mirrorR (call cfg b) := by
  have h12 : ∀ c : Binary, mergeTwo cfg c.mirror = mirrorR (mergeOne cfg c) := by
    intro c
    unfold mergeTwo mergeOne
    have : merge cfg c.mirror.star2 c.mirror.star1 = merge cfg c.star1 c.star2 := rfl
    rw [this]
    cases merge cfg c.star1 c.star2 <;> rfl
  have h21 : ∀ c : Binary, mergeOne cfg c.mirror = mirrorR (mergeTwo cfg c) := by
    intro c
    unfold mergeTwo mergeOne
    have : merge cfg c.mirror.star1 c.mirror.star2 = merge cfg c.star2 c.star1 := rfl
    rw [this]
    cases merge cfg c.star2 c.star1 <;> rfl
  have hst : b.mirror.state = .merged ↔ b.state = .merged := by
    show b.state.mirror = .merged ↔ _
    cases b.state <;> simp [FlowChart.BState.mirror]
  have e1 : b.mirror.event = .oMerging1 ↔ b.event = .oMerging2 := by
    show b.event.mirror = _ ↔ _
    cases b.event <;> simp [FlowChart.Ev.mirror]
  have e2 : b.mirror.event = .oMerging2 ↔ b.event = .oMerging1 := by
    show b.event.mirror = _ ↔ _
    cases b.event <;> simp [FlowChart.Ev.mirror]
  have e3 : b.mirror.event = .oRLO1 ↔ b.event = .oRLO2 := by
    show b.event.mirror = _ ↔ _
    cases b.event <;> simp [FlowChart.Ev.mirror]
  have e4 : b.mirror.event = .oRLO2 ↔ b.event = .oRLO1 := by
    show b.event.mirror = _ ↔ _
    cases b.event <;> simp [FlowChart.Ev.mirror]
  have hm : ({ b.mirror with state := .merged } : Binary) = ({ b with state := .merged } : Binary).mirror := rfl
  unfold call
  simp only [hst, e1, e2, e3, e4, hm, h12, h21]
  have hhe : (heRich b.mirror.star1 && heRich b.mirror.star2) = (heRich b.star1 && heRich b.star2) := by
    show (heRich b.star2 && heRich b.star1) = _
    rw [Bool.and_comm]
  rw [hhe]
  by_cases hs : b.state = .merged
  · rw [if_pos hs, if_pos hs]
    by_cases h1 : b.event = .oMerging1
    · rw [if_neg (by rw [h1]; decide), if_pos h1, if_pos h1]
    · rw [if_neg h1, if_neg h1]
      by_cases h2 : b.event = .oMerging2
      · rw [if_pos h2, if_pos h2]
      · rw [if_neg h2, if_neg h2]; rfl
  · rw [if_neg hs, if_neg hs]
    by_cases hh : (heRich b.star1 && heRich b.star2) = true
    · rw [if_pos hh, if_pos hh]
      by_cases h1 : b.event = .oRLO1
      · rw [if_neg (by rw [h1]; decide), if_pos h1, if_pos h1]
      · rw [if_neg h1, if_neg h1]
        by_cases h2 : b.event = .oRLO2
        · rw [if_pos h2, if_pos h2]
        · rw [if_neg h2, if_neg h2]; rfl
    · rw [if_neg hh, if_neg hh]; rfl

/-- A merger leaves the binary merged with unchanged event, and exactly one star is a massless remnant if it was not a merger with a
massless one. -/
theorem C35_step_result (cfg : Cfg) (b b' : Binary) (h : call cfg b = .ok b') :
    b'.state = .merged ∧ b'.event = b.event ∧ (b'.star1.state = some .massless ∨ b'.star2.state = some .massless) := by
  have hm : ∀ x y v, merge cfg x y = .ok v → v.1.state = some .massless ∨ v.2.state = some .massless := by
    intro x y v hv
    unfold merge at hv
    cases hb : branch x.state y.state with
    | none => rw [hb] at hv; simp at hv
    | some br =>
      rw [hb] at hv
      by_cases hn : br = .nsbh
      · subst hn
        obtain rfl := Except.ok.inj hv
        exact Or.inl rfl
      · obtain ⟨p, -, -, hr⟩ := merge_ok (m := v.1) (r := v.2) hb hn (by unfold merge; rw [hb]; exact hv)
        right
        rw [hr]
        rfl
  have ho : ∀ c d : Binary, mergeOne cfg c = .ok d → d.state = c.state ∧ d.event = c.event ∧ (d.star1.state = some .massless ∨ d.star2.state = some .massless) := by
    intro c d hd
    unfold mergeOne at hd
    cases hv : merge cfg c.star1 c.star2 with
    | error e => rw [hv] at hd; simp at hd
    | ok v =>
      rw [hv] at hd
      obtain rfl := Except.ok.inj hd
      exact ⟨rfl, rfl, hm _ _ _ hv⟩
  have ht : ∀ c d : Binary, mergeTwo cfg c = .ok d → d.state = c.state ∧ d.event = c.event ∧ (d.star1.state = some .massless ∨ d.star2.state = some .massless) := by
    intro c d hd
    unfold mergeTwo at hd
    cases hv : merge cfg c.star2 c.star1 with
    | error e => rw [hv] at hd; simp at hd
    | ok v =>
      rw [hv] at hd
      obtain rfl := Except.ok.inj hd
      exact ⟨rfl, rfl, (hm _ _ _ hv).symm⟩
  unfold call at h
  by_cases hs : b.state = .merged
  · rw [if_pos hs] at h
    by_cases h1 : b.event = .oMerging1
    · rw [if_pos h1] at h
      obtain ⟨x, y, z⟩ := ho _ _ h
      exact ⟨x.trans hs, y, z⟩
    · rw [if_neg h1] at h
      by_cases h2 : b.event = .oMerging2
      · rw [if_pos h2] at h
        obtain ⟨x, y, z⟩ := ht _ _ h
        exact ⟨x.trans hs, y, z⟩
      · rw [if_neg h2] at h; simp at h
  · rw [if_neg hs] at h
    by_cases hh : (heRich b.star1 && heRich b.star2) = true
    · rw [if_pos hh] at h
      by_cases h1 : b.event = .oRLO1
      · rw [if_pos h1] at h
        obtain ⟨x, y, z⟩ := ho _ _ h
        exact ⟨x, y, z⟩
      · rw [if_neg h1] at h
        by_cases h2 : b.event = .oRLO2
        · rw [if_pos h2] at h
          obtain ⟨x, y, z⟩ := ht _ _ h
          exact ⟨x, y, z⟩
        · rw [if_neg h2] at h; simp at h
    · rw [if_neg hh] at h; simp at h

/-! ### Every supported pair has an outcome -/

def classKeys : List String := ["center_h1", "center_he4", "center_c12"]
/-- The central abundances the classification needs are there. -/
def HasCentre (s : Star) : Prop := ∀ n ∈ classKeys, s.get n ≠ .none

theorem mean_ne_none (a b c d : Val) : mean a b c d ≠ .none := by
  cases a <;> cases b <;> cases c <;> cases d <;> simp [mean]
  split_ifs <;> simp

theorem avg_ok {s1 s2 : Star} {n : String} {w1 w2 : Weight} (h1 : ∃ v, weight s1 w1 = .ok v) (h2 : ∃ v, weight s2 w2 = .ok v) :
    ∃ v, avg s1 s2 n w1 w2 = .ok v ∧ v ≠ .none := by
  obtain ⟨a, ha⟩ := h1
  obtain ⟨b, hb⟩ := h2
  unfold avg
  rw [ha, hb]
  exact ⟨_, rfl, mean_ne_none _ _ _ _⟩

theorem weight_ok {s : Star} (hs : Numeric s) (w : Weight) : ∃ v, weight s w = .ok v := by
  obtain ⟨a, ha⟩ := hs "mass" (by decide)
  obtain ⟨b, hb⟩ := hs "he_core_mass" (by decide)
  obtain ⟨c, hc⟩ := hs "co_core_mass" (by decide)
  cases w with
  | mass => exact ⟨_, rfl⟩
  | hEnv => unfold weight; rw [ha, hb]; exact ⟨_, rfl⟩
  | heEnv => unfold weight; rw [hb, hc]; exact ⟨_, rfl⟩
  | key k => exact ⟨_, rfl⟩

theorem settle_total (cfg : Cfg) {m : Star} (h : HasCentre m) : ∃ m', settle cfg m = .ok m' := by
  unfold settle classify
  have e : ["center_h1", "center_he4", "center_c12", "log_LH", "log_LHe", "log_Lnuc"].any (fun k => decide ((applyNan [] m).get k = .none)) = false := by
    have h1 := h "center_h1" (by decide)
    have h2 := h "center_he4" (by decide)
    have h3 := h "center_c12" (by decide)
    have e1 : (applyNan [] m).get "center_h1" = m.get "center_h1" := by rw [applyNan_get, if_neg (by decide)]
    have e2 : (applyNan [] m).get "center_he4" = m.get "center_he4" := by rw [applyNan_get, if_neg (by decide)]
    have e3 : (applyNan [] m).get "center_c12" = m.get "center_c12" := by rw [applyNan_get, if_neg (by decide)]
    have e4 : (applyNan [] m).get "log_LH" = .nan := by rw [applyNan_get, if_pos (by decide)]
    have e5 : (applyNan [] m).get "log_LHe" = .nan := by rw [applyNan_get, if_pos (by decide)]
    have e6 : (applyNan [] m).get "log_Lnuc" = .nan := by rw [applyNan_get, if_pos (by decide)]
    simp [e1, e2, e3, e4, e5, e6, h1, h2, h3]
  rw [e, Bool.and_false]
  exact ⟨_, rfl⟩

/-- Sums of masses followed by the classification always succeed. -/
theorem sums_total (cfg : Cfg) {comp m : Star} {ns : List String} (hns : ns ⊆ massKeys) (hnd : ns.Nodup) (hm : Numeric m) (hc : Numeric comp)
    (h : HasCentre m) : ∃ m', bindE (loop (sumB comp) ns m) (settle cfg) = .ok m' := by
  obtain ⟨b, hb⟩ := sumB_total (comp := comp) (m := m) hnd (by
    intro n hn
    obtain ⟨x, hx⟩ := hm n (hns hn)
    obtain ⟨y, hy⟩ := hc n (hns hn)
    rw [hx, hy]
    exact ⟨_, rfl⟩)
  obtain ⟨-, b1, -⟩ := sumB_spec hnd hb
  rw [hb]
  apply settle_total
  intro n hn
  have : n ∉ ns := fun hx => by
    have hd : ∀ n ∈ classKeys, n ∉ massKeys := by decide
    exact hd n hn (hns hx)
  rw [b1 n this]
  exact h n hn

theorem mixCenters_total {comp base : Star} (k : String) (hk : k ∉ centers) :
    ∃ m, bindE (loop (mixB comp (.key k) (.key k)) centers base) gammaNan = .ok m ∧ HasCentre m := by
  obtain ⟨c, hc⟩ := mixB_total (comp := comp) (w1 := .key k) (w2 := .key k) (ns := centers) (m := base) (by decide) (by simpa [weightKeys] using hk)
    (fun n _ => by obtain ⟨v, hv, -⟩ := avg_ok (s1 := base) (s2 := comp) (n := n) (w1 := .key k) (w2 := .key k) ⟨_, rfl⟩ ⟨_, rfl⟩; exact ⟨v, hv⟩)
  have hm : bindE (loop (mixB comp (.key k) (.key k)) centers base) gammaNan = .ok (c.set "center_gamma" .nan) := by rw [hc]; rfl
  refine ⟨_, hm, ?_⟩
  obtain ⟨-, -, z⟩ := mixCenters hk hm
  intro n hn
  have hcn : n ∈ centers := by revert n; decide
  have := z n hcn
  obtain ⟨v, hv, hne⟩ := avg_ok (s1 := base) (s2 := comp) (n := n) (w1 := .key k) (w2 := .key k) ⟨_, rfl⟩ ⟨_, rfl⟩
  rw [this] at hv
  rw [Except.ok.inj hv]
  exact hne

theorem copyCenters_total {comp base : Star} (h : HasCentre comp) :
    ∃ m, bindE (loop (copy comp) centers base) (gammaOf comp) = .ok m ∧ HasCentre m := by
  obtain ⟨c, hc⟩ := loop_total (copy comp) centers base (by decide) (fun _ _ _ _ _ _ _ => rfl) (fun n _ => ⟨_, rfl⟩)
  have hm : bindE (loop (copy comp) centers base) (gammaOf comp) = .ok (c.set "center_gamma" (comp.get "center_gamma")) := by rw [hc]; rfl
  refine ⟨_, hm, ?_⟩
  obtain ⟨-, -, z⟩ := copyCenters hm
  intro n hn
  have hcn : n ∈ centers := by revert n; decide
  rw [z n hcn]
  exact h n hn

theorem iteE_cases {x y : Except Err Star} {P : Star → Prop} (c : Bool) (hx : ∃ m, x = .ok m ∧ P m) (hy : ∃ m, y = .ok m ∧ P m) :
    ∃ m, iteE (.ok c) x y = .ok m ∧ P m := by
  cases c
  · exact hy
  · exact hx

theorem cores4B_total {comp base : Star} (hb : Numeric base) (hc : Numeric comp) (h1 : HasCentre base) (h2 : HasCentre comp) :
    ∃ m, cores4B comp base = .ok m ∧ HasCentre m := by
  obtain ⟨x, hx⟩ := hb "co_core_mass" (by decide)
  obtain ⟨y, hy⟩ := hc "co_core_mass" (by decide)
  unfold cores4B
  simp only [hx, hy, eq0, gt0]
  have ha : ∀ p q : Bool, andE (.ok p) (.ok q) = .ok (p && q) := by intro p q; cases p <;> rfl
  rw [ha, ha, ha]
  exact iteE_cases _ (mixCenters_total _ (by decide)) (iteE_cases _ ⟨_, rfl, h1⟩ (iteE_cases _ (copyCenters_total h2)
    (iteE_cases _ (mixCenters_total _ (by decide)) ⟨_, rfl, h1⟩)))

theorem cores2B_total {comp base : Star} (hb : Numeric base) (hc : Numeric comp) (h1 : HasCentre base) :
    ∃ m, cores2B comp base = .ok m ∧ HasCentre m := by
  obtain ⟨x, hx⟩ := hb "co_core_mass" (by decide)
  obtain ⟨y, hy⟩ := hc "co_core_mass" (by decide)
  unfold cores2B
  simp only [hx, hy, eq0, gt0]
  have ha : ∀ p q : Bool, andE (.ok p) (.ok q) = .ok (p && q) := by intro p q; cases p <;> rfl
  rw [ha]
  exact iteE_cases _ (mixCenters_total _ (by decide)) (iteE_cases _ ⟨_, rfl, h1⟩ ⟨_, rfl, h1⟩)

theorem coresWD_total {comp base : Star} (hb : Numeric base) (h1 : HasCentre base) (h2 : HasCentre comp) :
    ∃ m, coresWD comp base = .ok m ∧ HasCentre m := by
  obtain ⟨x, hx⟩ := hb "co_core_mass" (by decide)
  unfold coresWD
  simp only [hx, eq0, gt0]
  have ha : ∀ p q : Bool, andE (.ok p) (.ok q) = .ok (p && q) := by intro p q; cases p <;> rfl
  rw [ha]
  exact iteE_cases _ (copyCenters_total h2) (iteE_cases _ (mixCenters_total _ (by decide)) ⟨_, rfl, h1⟩)

theorem numeric_of {base c : Star} (hb : Numeric base) (h : ∀ k, k ∉ centers → k ≠ "center_gamma" → c.get k = base.get k) : Numeric c := by
  intro k hk
  have h1 : k ∉ centers := by revert k; decide
  have h2 : k ≠ "center_gamma" := by rintro rfl; revert hk; decide
  rw [h k h1 h2]
  exact hb k hk

theorem mixSurfaces_total {comp c : Star} {w1 w2 : Weight} (hw1 : ∀ k ∈ weightKeys w1, k ∉ surfaces) (hc : Numeric c) (hcomp : Numeric comp)
    (hn : HasCentre c) : ∃ a, loop (mixB comp w1 w2) surfaces c = .ok a ∧ Numeric a ∧ HasCentre a := by
  obtain ⟨a, ha⟩ := mixB_total (comp := comp) (w1 := w1) (w2 := w2) (ns := surfaces) (m := c) (by decide) hw1
    (fun n _ => by obtain ⟨v, hv, -⟩ := avg_ok (n := n) (weight_ok hc w1) (weight_ok hcomp w2); exact ⟨v, hv⟩)
  obtain ⟨-, a1, -⟩ := mixB_spec (by decide) hw1 ha
  refine ⟨a, ha, ?_, ?_⟩
  · intro k hk
    have : k ∉ surfaces := by revert k; decide
    rw [a1 k this]
    exact hc k hk
  · intro n hn'
    have : n ∉ surfaces := by revert n; decide
    rw [a1 n this]
    exact hn n hn'

/-- With numbers for all masses and with central abundances, every pair of states that has a branch has an outcome. -/
theorem C35_total (cfg : Cfg) (base comp : Star) (b : Branch) (hb : branch base.state comp.state = some b) (h1 : Numeric base) (h2 : Numeric comp)
    (c1 : HasCentre base) (c2 : HasCentre comp) : ∃ v, merge cfg base comp = .ok v := by
  have hsum : ∀ c d : Star, Numeric c → HasCentre c → Numeric d → ∃ m, bindE (loop (sumB d) massKeys c) (settle cfg) = .ok m :=
    fun c d hc hn hd => sums_total cfg (fun _ h => h) (by decide) hc hd hn
  have hcore4 : ∀ c d : Star, Numeric c → HasCentre c → Numeric d → HasCentre d → ∃ m, cores4B d c = .ok m ∧ HasCentre m ∧ Numeric m := by
    intro c d hc hn hd hnd
    obtain ⟨m, hm, hmc⟩ := cores4B_total hc hd hn hnd
    exact ⟨m, hm, hmc, numeric_of hc (cores4B_spec hm).other⟩
  have hcore2 : ∀ c d : Star, Numeric c → HasCentre c → Numeric d → ∃ m, cores2B d c = .ok m ∧ HasCentre m ∧ Numeric m := by
    intro c d hc hn hd
    obtain ⟨m, hm, hmc⟩ := cores2B_total hc hd hn
    exact ⟨m, hm, hmc, numeric_of hc (cores2B_spec hm).2.1⟩
  have hph : ∀ c d : Star, Numeric c → HasCentre c → Numeric d → ∃ m, prodPostHms cfg c d = .ok m := by
    intro c d hc hn hd
    obtain ⟨a, ha, hna, hca⟩ := mixSurfaces_total (comp := d) (w1 := .hEnv) (w2 := .mass) (by decide) hc hd hn
    unfold prodPostHms
    rw [ha]
    exact sums_total cfg (by decide) (by decide) hna hd hca
  have hp2 : ∀ c d : Star, Numeric c → HasCentre c → Numeric d → ∃ m, prodPostHeMS cfg c d = .ok m := by
    intro c d hc hn hd
    obtain ⟨m, hm, hmc, hmn⟩ := hcore2 c d hc hn hd
    unfold prodPostHeMS
    rw [hm]
    exact hsum m d hmn hmc hd
  have hp4 : ∀ c d : Star, Numeric c → HasCentre c → Numeric d → HasCentre d → ∃ m, prodPostPostHe cfg c d = .ok m := by
    intro c d hc hn hd hdc
    obtain ⟨m, hm, hmc, hmn⟩ := hcore4 c d hc hn hd hdc
    unfold prodPostPostHe
    rw [hm]
    exact hsum m d hmn hmc hd
  have hprod : ∃ p, product cfg base comp b = .ok p := by
    cases b with
    | hmsHms =>
      obtain ⟨a, ha⟩ := mixB_total (comp := comp) (w1 := .mass) (w2 := .mass) (ns := centers5 ++ surfaces) (m := base) (by decide) (by decide)
        (fun n _ => by obtain ⟨v, hv, -⟩ := avg_ok (n := n) (weight_ok h1 .mass) (weight_ok h2 .mass); exact ⟨v, hv⟩)
      obtain ⟨-, a1, -⟩ := mixB_spec (by decide) (by decide) ha
      obtain ⟨x, hx⟩ := h1 "mass" (by decide)
      obtain ⟨y, hy⟩ := h2 "mass" (by decide)
      have e : add (a.get "mass") (comp.get "mass") = .ok (.num (x + y)) := by rw [a1 "mass" (by decide), hx, hy]; rfl
      simp only [product, prodHmsHms, ha, bindE, e]
      exact ⟨_, rfl⟩
    | postHms => exact hph base comp h1 c1 h2
    | hmsPost => simp only [product, hmsPost_eq]; exact hph comp base h2 c2 h1
    | postPost =>
      obtain ⟨m, hm, hmc, hmn⟩ := hcore4 base comp h1 c1 h2 c2
      obtain ⟨a, ha, hna, hca⟩ := mixSurfaces_total (comp := comp) (w1 := .hEnv) (w2 := .hEnv) (by decide) hmn h2 hmc
      simp only [product, prodPostPost, hm, bindE, ha]
      exact hsum a comp hna hca h2
    | postHeMS => exact hp2 base comp h1 c1 h2
    | heMSPost => simp only [product, heMSPost_eq]; exact hp2 comp base h2 c2 h1
    | postPostHe => exact hp4 base comp h1 c1 h2 c2
    | postHePost => simp only [product, postHePost_eq]; exact hp4 comp base h2 c2 h1 c1
    | heHe =>
      obtain ⟨m, hm, hmc, hmn⟩ := hcore4 base comp h1 c1 h2 c2
      obtain ⟨s, hs⟩ := sumB_total (comp := comp) (ns := massKeys) (m := m) (by decide) (by
        intro n hn
        obtain ⟨x, hx⟩ := hmn n hn
        obtain ⟨y, hy⟩ := h2 n hn
        rw [hx, hy]
        exact ⟨_, rfl⟩)
      obtain ⟨-, s1, s2⟩ := sumB_spec (by decide) hs
      have hns : Numeric s := by
        intro k hk
        obtain ⟨x, hx⟩ := hmn k hk
        obtain ⟨y, hy⟩ := h2 k hk
        have := s2 k hk
        rw [hx, hy] at this
        exact ⟨_, (Except.ok.inj this).symm⟩
      have hcs : HasCentre s := by
        intro n hn
        have : n ∉ massKeys := by revert n; decide
        rw [s1 n this]
        exact hmc n hn
      obtain ⟨a, ha, hna, hca⟩ := mixSurfaces_total (comp := comp) (w1 := .heEnv) (w2 := .heEnv) (by decide) hns h2 hcs
      simp only [product, prodHeHe, hm, bindE, hs, ha]
      exact settle_total cfg hca
    | wd =>
      obtain ⟨m, hm, hmc⟩ := coresWD_total h1 c1 c2
      have hmn := numeric_of h1 (coresWD_spec hm).2.1
      obtain ⟨w, hw⟩ := h2 "mass" (by decide)
      have hind : ∀ (m : Star) (n k : String) (v : Val), n ∈ massKeys → k ∈ massKeys → n ≠ k →
          add ((m.set k v).get n) (comp.get "mass") = add (m.get n) (comp.get "mass") := by
        intro m n k v _ _ hne
        rw [get_set_ne hne]
      obtain ⟨s, hs⟩ := loop_total (fun m n => add (m.get n) (comp.get "mass")) massKeys m (by decide) hind (by
        intro n hn
        obtain ⟨x, hx⟩ := hmn n hn
        rw [hx, hw]
        exact ⟨_, rfl⟩)
      obtain ⟨-, s1, -⟩ := loop_spec _ massKeys m s (by decide) hind hs
      simp only [product, prodWD, hm, bindE, hs]
      apply settle_total
      intro n hn
      have : n ∉ massKeys := by revert n; decide
      rw [s1 n this]
      exact hmc n hn
    | nsbh => exact ⟨_, rfl⟩
  obtain ⟨p, hp⟩ := hprod
  unfold merge
  rw [hb]
  cases b <;> simp only [hp] <;> exact ⟨_, rfl⟩

/-! ### A concrete case -/

/-- A helium-burning giant of 10 with a core of 3 and a main-sequence star of 5. -/
def exGiant : Star :=
  { state := some .hCoreHe, get := fun k => if k = "mass" then .num 10 else if k = "he_core_mass" then .num 3 else if massKeys.contains k then .num 0
      else if k = "surface_h1" then .num (7 / 10) else if k = "center_he4" then .num (1 / 2) else if k = "center_h1" then .num 0
      else if k = "center_c12" then .num (1 / 2) else .nan }
def exDwarf : Star :=
  { state := some .hCoreH, get := fun k => if k = "mass" then .num 5 else if massKeys.contains k then .num 0
      else if k = "surface_h1" then .num (1 / 2) else if k = "center_he4" then .num (1 / 2) else if k = "center_h1" then .num (1 / 2)
      else if k = "center_c12" then .num 0 else .nan }
def exCfg : Cfg := { crit := 4 / 10, loss := 1 / 10, rnd := id, rel := -2 }

theorem exGiant_numeric : Numeric exGiant := by
  intro k hk
  simp only [massKeys, List.mem_cons, List.not_mem_nil, or_false] at hk
  rcases hk with rfl | rfl | rfl | rfl | rfl
  · exact ⟨10, by decide +kernel⟩
  · exact ⟨3, by decide +kernel⟩
  · exact ⟨0, by decide +kernel⟩
  · exact ⟨0, by decide +kernel⟩
  · exact ⟨0, by decide +kernel⟩

theorem exDwarf_numeric : Numeric exDwarf := by
  intro k hk
  simp only [massKeys, List.mem_cons, List.not_mem_nil, or_false] at hk
  rcases hk with rfl | rfl | rfl | rfl | rfl
  · exact ⟨5, by decide +kernel⟩
  · exact ⟨0, by decide +kernel⟩
  · exact ⟨0, by decide +kernel⟩
  · exact ⟨0, by decide +kernel⟩
  · exact ⟨0, by decide +kernel⟩

/-- The hypotheses of the theorems above hold: the product has mass 15 and its surface (7 * 0.7 + 5 * 0.5) / 12 = 37/60. -/
example : ∃ m r, merge exCfg exGiant exDwarf = .ok (m, r) ∧ m.get "mass" = .num 15 ∧ m.get "surface_h1" = .num (37 / 60) ∧ m.state = some .hNon := by
  have hb : branch exGiant.state exDwarf.state = some .postHms := by decide +kernel
  obtain ⟨⟨m, r⟩, h⟩ := C35_total exCfg exGiant exDwarf .postHms hb exGiant_numeric exDwarf_numeric
    (by unfold HasCentre; decide +kernel) (by unfold HasCentre; decide +kernel)
  have hm := (C35_mass exCfg exGiant exDwarf m r _ 10 5 hb (by simp) (by decide +kernel) (by decide +kernel) h).1
  have hs := C35_surface_mixed exCfg exGiant exDwarf m r .hCoreHe .hCoreH rfl rfl (Or.inr (by decide)) (Or.inl rfl) h "surface_h1" (by decide)
    (7 / 10) (1 / 2) 7 5 (by decide +kernel) (by decide +kernel)
    (by unfold envelope; rw [if_neg (by decide +kernel)]; exact ⟨10, 3, by decide +kernel, by decide +kernel, by norm_num⟩)
    (by unfold envelope; rw [if_pos (by decide +kernel)]; decide +kernel) (by norm_num)
  obtain ⟨x, hx, he⟩ := hs
  have hx' : x = 37 / 60 := by linarith
  refine ⟨m, r, h, ?_, ?_, ?_⟩
  · rw [hm, if_neg (by simp)]; norm_num
  · rw [hx, hx']
  · exact C35_giant_not_burning_violated exCfg exGiant exDwarf m r rfl rfl h 0 (1 / 2) (1 / 2) x (by decide +kernel) (by decide +kernel)
      (by decide +kernel) (by norm_num) (by norm_num) hx (by rw [hx']; norm_num)

/-- A binary that is not marked as merged is merged only if both stars have a state and it is that of a star rich in helium. -/
theorem C35_not_marked (cfg : Cfg) (b b' : Binary) (hb : b.state ≠ .merged) (h : call cfg b = .ok b') :
    ∃ x y, b.star1.state = some x ∧ b.star2.state = some y ∧ x ∈ starHeRich ∧ y ∈ starHeRich := by
  unfold call at h
  rw [if_neg hb] at h
  by_cases hh : (heRich b.star1 && heRich b.star2) = true
  · rw [Bool.and_eq_true] at hh
    obtain ⟨h1, h2⟩ := hh
    unfold heRich at h1 h2
    cases hx : b.star1.state with
    | none => rw [hx] at h1; cases h1
    | some x =>
      cases hy : b.star2.state with
      | none => rw [hy] at h2; cases h2
      | some y =>
        rw [hx] at h1
        rw [hy] at h2
        exact ⟨x, y, rfl, rfl, by simpa using h1, by simpa using h2⟩
  · rw [if_neg hh] at h
    cases h

end Verif.Merged
