import Verif.Chars
import Verif.MTLabel
/-!
C93: the text of the mass-transfer history of a run exists and names the last phase of mass transfer.
-/
namespace Verif.MTLabel
open Verif.TermFlags (IC)

theorem render_mem : ∀ (l : List ℕ) (added : Bool) (n : ℕ) (s : Txt), n ∈ l → n ≠ 9 → n ≠ 0 → MTCase.label n = some s → ∀ c ∈ s, c ∈ MTCase.renderLoop added l := by
  intro l
  induction l with
  | nil => intro _ _ _ h; simp at h
  | cons a l ih =>
    intro added n s hn h9 h0 hs c hc
    unfold MTCase.renderLoop
    rcases List.mem_cons.1 hn with e | e
    · subst e
      rw [if_neg h9, if_neg h0, hs]
      simp [hc]
    · have hh : ∀ b, c ∈ MTCase.renderLoop b l := fun b => ih b n s e h9 h0 hs c hc
      by_cases a9 : a = 9
      · rw [if_pos a9]; simp [hh]
      · by_cases a0 : a = 0
        · rw [if_neg a9, if_pos a0]; simp [hh]
        · rw [if_neg a9, if_neg a0]
          cases MTCase.label a with
          | none => exact hh _
          | some v => simp [hh]

/-- Mass transfer from both stars gives the texts of reverse mass transfer. -/
theorem reverse_text {t : Txt} (h1 : '1' ∈ t) (h2 : '2' ∈ t) : history .stable t = some "Stable reverse mass-transfer phase" ∧
    history .unstable t = some "Unstable reverse mass-transfer phase" := by
  have key : ∀ c : Char, c ≠ '?' → c ∈ t → c ∈ (if (chars! "?case").isPrefixOf t then t.drop 1 else t) := by
    intro c hc hm
    split_ifs with hp
    · cases t with
      | nil => simp at hm
      | cons a t =>
        have ha : a = '?' := by
          have hp' : ((chars! "?case")).isPrefixOf (a :: t) = true := hp
          rw [List.isPrefixOf_iff_prefix] at hp'
          have := (List.cons_prefix_cons.1 (show '?' :: (chars! "case") <+: a :: t from hp')).1
          exact this.symm
        rcases List.mem_cons.1 hm with e | e
        · exact absurd (e.trans ha) hc
        · simpa using e
    · exact hm
  have k1 := key '1' (by decide) h1
  have k2 := key '2' (by decide) h2
  have e1 : combine .stable t = (chars! "Reverse stable MT") := by
    unfold combine body; dsimp only; rw [if_pos ⟨k1, k2⟩]; rfl
  have e2 : combine .unstable t = (chars! "Reverse unstable MT") := by
    unfold combine body; dsimp only; rw [if_pos ⟨k1, k2⟩]; rfl
  unfold history
  rw [e1, e2]
  decide +kernel

theorem own_all {b : Bool} {l : List ℕ} (h : ∀ x ∈ l, decide (9 < x) = b) : own b l = l := by
  unfold own
  rw [List.filter_eq_self]
  intro x hx
  simp [h x hx]

/-- Strictly increasing cases of the first star. -/
theorem in_table1 {l : List ℕ} (h : ∀ x ∈ l, Case x) (h9 : 9 ∉ l) (hs : ∀ x ∈ l, ¬ 9 < x) (hl : l.Pairwise (· < ·)) : l ∈ sublists known := by
  refine mem_sublists (by decide) hl fun x hx => ?_
  have h1 := h x hx
  have h2 := hs x hx
  have h3 : x ≠ 9 := fun e => h9 (e ▸ hx)
  simp only [Case, known, List.mem_cons, List.not_mem_nil, or_false] at h1 ⊢
  omega

/-- Strictly increasing cases of the second star. -/
theorem in_table2 {l : List ℕ} (h : ∀ x ∈ l, Case x) (h19 : 19 ∉ l) (hs : ∀ x ∈ l, 9 < x) (hl : l.Pairwise (· < ·)) : l.map (· - 10) ∈ sublists known ∧ (l.map (· - 10)).map (· + 10) = l := by
  have hx : ∀ x ∈ l, x - 10 ∈ known ∧ x - 10 + 10 = x := by
    intro x hx
    have h1 := h x hx
    have h2 := hs x hx
    have h3 : x ≠ 19 := fun e => h19 (e ▸ hx)
    simp only [Case, known, List.mem_cons, List.not_mem_nil, or_false] at h1 ⊢
    omega
  refine ⟨mem_sublists (by decide) ?_ ?_, ?_⟩
  · rw [List.pairwise_map]
    refine hl.imp_of_mem fun {a b} ha hb hab => ?_
    have := hs a ha
    omega
  · intro y hy
    obtain ⟨x, hx', rfl⟩ := List.mem_map.1 hy
    exact (hx x hx').1
  · rw [List.map_map]
    conv_rhs => rw [← List.map_id l]
    exact List.map_congr_left fun x hx' => (hx x hx').2

/-- The steps of shifted cases of one star. -/
theorem steps_lt {l : List ℕ} (h : ∀ c ∈ l, Case c) {b : Bool} (hb : ∀ x ∈ steps (MTCase.shift 0 10 l), decide (9 < x) = b) : (steps (MTCase.shift 0 10 l)).Pairwise (· < ·) := by
  obtain ⟨-, m1, m2⟩ := shifted h
  obtain ⟨f1, f2, -⟩ := steps_facts (MTCase.shift 0 10 l)
  refine lt_of_le_chain ?_ f2
  rw [← own_all hb]
  have hsub : (own b (steps (MTCase.shift 0 10 l))).Sublist (own b (MTCase.shift 0 10 l)) := f1.filter _
  cases b
  · exact m1.sublist hsub
  · exact m2.sublist hsub

/-- Every flag of cases has a text, unless the second star has an undetermined case. -/
theorem flag_total {l : List ℕ} (h : ∀ c ∈ l, Case c) (h19 : 19 ∉ l) {t : Txt} (ht : MTCase.flag true l = some t) : (history .stable t).isSome = true ∧ (history .unstable t).isSome = true := by
  unfold MTCase.flag at ht
  rw [if_pos rfl] at ht
  obtain ⟨hmem, -, -⟩ := shifted h
  have hq : (history .stable ['?']).isSome = true ∧ (history .unstable ['?']).isSome = true := by decide +kernel
  obtain ⟨f1, f2, f3, f4, f5⟩ := steps_facts (MTCase.shift 0 10 l)
  have hlt := @steps_lt l h
  revert ht hmem f1 f2 f3 f4 f5 hlt
  generalize MTCase.shift 0 10 l = L
  intro ht hmem f1 f2 f3 f4 f5 hlt
  have hcL : ∀ x ∈ L, Case x := fun x hx => h x (hmem x hx)
  have h0 : 0 ∉ L := fun e => absurd (hcL 0 e) (by decide)
  by_cases hne : L = []
  · subst hne
    have : t = ['?'] := by
      have h2 : (MTCase.numeric []).map MTCase.render = some ['?'] := by decide
      rw [h2] at ht; exact (Option.some.inj ht).symm
    rw [this]; exact hq
  · by_cases h9 : L.filter (· ≠ 9) = []
    · have h9m : 9 ∈ L := by
        cases L with
        | nil => exact absurd rfl hne
        | cons a L =>
          rw [List.filter_eq_nil_iff] at h9
          have := h9 a (by simp)
          simp at this
          simp [this]
      have h2 : (MTCase.numeric L).map MTCase.render = some ['?'] := by
        unfold MTCase.numeric
        rw [if_neg (by simpa using hne)]
        simp only [h9m, if_true, true_and, h9]
        decide
      rw [h2] at ht
      rw [← Option.some.inj ht]; exact hq
    · rw [flag_text h0 hne h9] at ht
      have ht := (Option.some.inj ht).symm
      have hcs : ∀ x ∈ steps L, Case x := fun x hx => hcL x (f1.subset hx)
      have h19s : 19 ∉ steps L := fun e => h19 (hmem _ (f1.subset e))
      have hsne := f4 h9
      have hql : (if 9 ∈ L then ['?'] else ([] : Txt)) ∈ [[], ['?']] := by split_ifs <;> simp
      by_cases ha : ∀ x ∈ steps L, decide (9 < x) = false
      · have hm := in_table1 hcs f3 (fun x hx => by simpa using ha x hx) (hlt ha)
        have := table1 _ hm hsne _ hql
        rw [ht]; exact ⟨this.1, this.2.1⟩
      · by_cases hb : ∀ x ∈ steps L, decide (9 < x) = true
        · obtain ⟨hm, he⟩ := in_table2 hcs h19s (fun x hx => by simpa using hb x hx) (hlt hb)
          have hne' : (steps L).map (· - 10) ≠ [] := by simpa using hsne
          have h1 := table1 _ hm hne' _ hql
          have h2 := table2 _ hm hne' _ hql
          rw [he] at h2
          rw [ht, h2.1, h2.2]; exact ⟨h1.1, h1.2.1⟩
        · push Not at ha hb
          obtain ⟨x, hx, hx'⟩ := ha
          obtain ⟨y, hy, hy'⟩ := hb
          have hdig : ∀ z, Case z → z ≠ 9 → ∃ s, MTCase.label z = some s ∧ z ≠ 0 ∧ (if 9 < z then '2' else '1') ∈ s := by
            intro z hz hz9
            simp only [Case, List.mem_cons, List.not_mem_nil, or_false] at hz
            rcases hz with rfl | rfl | rfl | rfl | rfl | rfl | rfl | rfl | rfl | rfl | rfl | rfl | rfl | rfl
            all_goals first | exact absurd rfl hz9 | exact ⟨_, rfl, by decide, by decide⟩
          have hx9 : x ≠ 9 := fun e => f3 (e ▸ hx)
          have hy9 : y ≠ 9 := fun e => f3 (e ▸ hy)
          obtain ⟨sx, lx, zx, cx⟩ := hdig x (hcs x hx) hx9
          obtain ⟨sy, ly, zy, cy⟩ := hdig y (hcs y hy) hy9
          rw [if_pos (by simpa using hx')] at cx
          rw [if_neg (by simpa using hy')] at cy
          have m2 := render_mem (steps L) false x sx hx hx9 zx lx _ cx
          have m1 := render_mem (steps L) false y sy hy hy9 zy ly _ cy
          have := @reverse_text t (by rw [ht]; simp [text, m1]) (by rw [ht]; simp [text, m2])
          rw [this.1, this.2]; simp

/-- The texts of the classes that do not depend on the flag. -/
theorem const_text (t : Txt) : history .initialMT t = some "Initial RLOF" ∧ history .notConverged t = some "Not converged" ∧ history .noMT t = some "no RLOF" ∧
    history .stableReverse t = some "Stable reverse mass-transfer phase" ∧ history .unknown t = some "unknown" := by
  have key : ∀ (ic : IC) (c : Txt), combine ic t = c → history ic t = (legends.find? fun p => p.1.toList == c).map (·.2) := fun ic c h => by unfold history; rw [h]
  rw [key .initialMT (chars! "Initial RLOF") rfl, key .notConverged (chars! "Not converged") rfl, key .noMT (chars! "no_RLOF") rfl, key .stableReverse (chars! "Reverse stable MT") rfl,
    key .unknown (chars! "unknown") rfl]
  clear key t
  decide +kernel

theorem entries_case (rows : List MTCase.Row) : ∀ c ∈ rows.filterMap MTCase.mtEntry, Case c := by
  intro c hc
  obtain ⟨r, -, hr⟩ := List.mem_filterMap.1 hc
  exact entry_case hr

/-- For every history of a binary in which the second star never has an undetermined case, and for every class of the run, the post-processing finds a text for the mass-transfer history (it does not end in a `KeyError`). -/
theorem C93_label_total_partial (start : Bool) (rows : List MTCase.Row) (t : Txt) (ic : IC) (h : MTCase.massTransferFlag start rows = some t)
    (hu : ∀ r ∈ rows, MTCase.mtEntry r ≠ some 19) : history ic t ≠ none := by
  have key : (history .stable t).isSome = true ∧ (history .unstable t).isSome = true := by
    unfold MTCase.massTransferFlag at h
    split_ifs at h
    · rw [← Option.some.inj h]; decide +kernel
    · rw [← Option.some.inj h]; decide +kernel
    · rw [← Option.some.inj h]; decide +kernel
    · rw [← Option.some.inj h]; decide +kernel
    · refine flag_total (entries_case rows) (fun e => ?_) h
      obtain ⟨r, hr, e⟩ := List.mem_filterMap.1 e
      exact hu r hr e
  intro hn
  cases ic with
  | stable => rw [hn] at key; simp at key
  | unstable => rw [hn] at key; simp at key
  | initialMT => rw [(const_text t).1] at hn; cases hn
  | notConverged => rw [(const_text t).2.1] at hn; cases hn
  | noMT => rw [(const_text t).2.2.1] at hn; cases hn
  | stableReverse => rw [(const_text t).2.2.2.1] at hn; cases hn
  | unknown => rw [(const_text t).2.2.2.2] at hn; cases hn

/-! ### The last phase -/

theorem shift_max (k : ℕ) (hk : k = 0 ∨ k = 10) : ∀ (l : List ℕ) (m1 m2 m : ℕ), m ∈ l → (∀ e ∈ l, e ≤ m) → (∀ e ∈ l, k ≤ e ∧ e ≤ k + 9) → m1 ≤ 9 → 10 ≤ m2 → (k = 0 → m1 ≤ m) → (k = 10 → m2 ≤ m) → m ∈ MTCase.shift m1 m2 l := by
  intro l
  induction l with
  | nil => intro _ _ _ h; simp at h
  | cons c cs ih =>
    intro m1 m2 m hm hle hr h1 h2 hb1 hb2
    have hc := hr c (by simp)
    have hcm := hle c (by simp)
    have hle' : ∀ e ∈ cs, e ≤ m := fun e he => hle e (by simp [he])
    have hr' : ∀ e ∈ cs, k ≤ e ∧ e ≤ k + 9 := fun e he => hr e (by simp [he])
    unfold MTCase.shift
    rcases hk with rfl | rfl
    · have hb1 := hb1 rfl
      rw [if_pos (by omega)]
      rcases List.mem_cons.1 hm with e | e
      · subst e; rw [if_neg (by omega)]; simp
      · refine List.mem_cons_of_mem _ (ih _ _ m e hle' hr' (by split_ifs <;> omega) h2 (fun _ => by split_ifs <;> omega) (fun h => by omega))
    · have hb2 := hb2 rfl
      rw [if_neg (by omega), if_pos (by omega)]
      rcases List.mem_cons.1 hm with e | e
      · subst e; rw [if_neg (by omega)]; simp
      · refine List.mem_cons_of_mem _ (ih _ _ m e hle' hr' h1 (by split_ifs <;> omega) (fun h => by omega) (fun _ => by split_ifs <;> omega))

theorem last_max : ∀ (l : List ℕ) (m d : ℕ), l.Pairwise (· < ·) → m ∈ l → (∀ e ∈ l, e ≤ m) → l.getLastD d = m := by
  intro l
  induction l with
  | nil => intro _ _ _ h; simp at h
  | cons a l ih =>
    intro m d hp hm hle
    obtain ⟨ha, hp⟩ := List.pairwise_cons.1 hp
    cases l with
    | nil => simp at hm; simp [hm]
    | cons b l =>
      have hm' : m ∈ b :: l := by
        rcases List.mem_cons.1 hm with e | e
        · have h1 := ha b (by simp)
          have h2 := hle b (by simp)
          omega
        · exact e
      have := ih m a hp hm' fun e he => hle e (by simp [he])
      rw [← this]; rfl

/-- If only one star (the first, `k = 0`, or the second, `k = 10`) transfers mass, in known cases, and `m` is the most advanced of them (not the non-burning case, or there is no other), then the text names the phase of the star in case `m`, for stable and for unstable mass transfer. -/
theorem C93_last_phase (start : Bool) (rows : List MTCase.Row) (t : Txt) (k m : ℕ) (hk : k = 0 ∨ k = 10) (h : MTCase.massTransferFlag start rows = some t)
    (hc : t ≠ (chars! "contact_during_MS")) (hi : t ≠ (chars! "initial_RLOF")) (hkn : ∀ c ∈ rows.filterMap MTCase.mtEntry, ∃ a ∈ known, c = a + k)
    (hm : m + k ∈ rows.filterMap MTCase.mtEntry) (hle : ∀ c ∈ rows.filterMap MTCase.mtEntry, c ≤ m + k)
    (h8 : m ≠ 8 ∨ ∀ c ∈ rows.filterMap MTCase.mtEntry, c = 8 + k) :
    history .stable t = some (stablePhase m) ∧ history .unstable t = some (unstablePhase m) := by
  have hfl : MTCase.flag true (rows.filterMap MTCase.mtEntry) = some t := by
    unfold MTCase.massTransferFlag at h
    split_ifs at h with a b
    · exact absurd (Option.some.inj h).symm hc
    · exfalso
      obtain ⟨r, hr, e⟩ := List.mem_filterMap.1 hm
      simp only [Bool.and_eq_true, Bool.not_eq_true', List.any_eq_false] at b
      unfold MTCase.mtEntry at e
      rw [if_neg (b.2 r hr), if_neg (b.1 r hr)] at e
      simp at e
    · exact absurd (Option.some.inj h).symm hi
    · exact absurd (Option.some.inj h).symm hi
    · exact h
  have hcase := entries_case rows
  revert hfl hkn hm hle h8 hcase
  clear h hc hi
  generalize rows.filterMap MTCase.mtEntry = l
  intro hkn hm hle h8 hfl hcase
  have hkr : ∀ a ∈ known, 1 ≤ a ∧ a ≤ 8 := by decide
  have hr : ∀ e ∈ l, k ≤ e ∧ e ≤ k + 9 := by
    intro e he
    obtain ⟨a, ha, rfl⟩ := hkn e he
    have := hkr a ha
    omega
  have hmk : m ∈ known := by
    obtain ⟨a, ha, e⟩ := hkn _ hm
    have : a = m := by omega
    exact this ▸ ha
  have hmr := hkr m hmk
  have hms : m + k ∈ MTCase.shift 0 10 l :=
    shift_max k hk l 0 10 (m + k) hm hle hr (by omega) (by omega) (by omega) (by omega)
  obtain ⟨hmem, -, -⟩ := shifted hcase
  obtain ⟨f1, f2, f3, f4, f5⟩ := steps_facts (MTCase.shift 0 10 l)
  have hlt := @steps_lt l hcase
  unfold MTCase.flag at hfl
  rw [if_pos rfl] at hfl
  revert hms hmem f1 f2 f3 f4 f5 hlt hfl
  generalize MTCase.shift 0 10 l = L
  intro hfl hms hmem f1 f2 f3 f4 f5 hlt
  have h0 : 0 ∉ L := fun e => by
    obtain ⟨a, ha, e⟩ := hkn 0 (hmem 0 e)
    have := hkr a ha; omega
  have hm9 : m + k ≠ 9 := by
    intro e
    obtain ⟨a, ha, e'⟩ := hkn _ hm
    have := hkr a ha
    rcases hk with rfl | rfl <;> omega
  have h9 : L.filter (· ≠ 9) ≠ [] := by
    intro e
    have : m + k ∈ L.filter (· ≠ 9) := List.mem_filter.2 ⟨hms, by simpa using hm9⟩
    rw [e] at this; simp at this
  have hne : L ≠ [] := fun e => by rw [e] at hms; simp at hms
  rw [flag_text h0 hne h9] at hfl
  have ht := (Option.some.inj hfl).symm
  have hql : (if 9 ∈ L then ['?'] else ([] : Txt)) ∈ [[], ['?']] := by split_ifs <;> simp
  have hmst := f5 _ hms hm9
  have hles : ∀ e ∈ steps L, e ≤ m + k := fun e he => hle e (hmem e (f1.subset he))
  have hcs : ∀ x ∈ steps L, Case x := fun x hx => hcase x (hmem x (f1.subset hx))
  have hrs : ∀ x ∈ steps L, k ≤ x ∧ x ≤ k + 9 := fun x hx => hr x (hmem x (f1.subset hx))
  have hsne := f4 h9
  rcases hk with rfl | rfl
  · have ha : ∀ x ∈ steps L, decide (9 < x) = false := fun x hx => by
      have := hrs x hx; simp; omega
    have hp := hlt ha
    have hmt := in_table1 hcs f3 (fun x hx => by simpa using ha x hx) hp
    have htab := (table1 _ hmt hsne _ hql).2.2
    have hlast := last_max _ (m + 0) 0 hp hmst hles
    rw [hlast] at htab
    rw [ht]
    refine htab ?_
    rcases h8 with h8 | h8
    · exact Or.inl h8
    · right
      have hall : ∀ x ∈ steps L, x = 8 := fun x hx => h8 x (hmem x (f1.subset hx))
      revert hp hall hsne
      generalize steps L = s
      intro hsne hp hall
      match s with
      | [] => exact absurd rfl hsne
      | [a] => rw [hall a (by simp)]
      | a :: b :: r =>
        have h1 := (List.pairwise_cons.1 hp).1 b (by simp)
        have h2 := hall a (by simp)
        have h3 := hall b (by simp)
        omega
  · have hb : ∀ x ∈ steps L, decide (9 < x) = true := fun x hx => by
      have := hrs x hx; simp; omega
    have hp := hlt hb
    have h19s : 19 ∉ steps L := fun e => by have := hles 19 e; omega
    obtain ⟨hmt, he⟩ := in_table2 hcs h19s (fun x hx => by simpa using hb x hx) hp
    have hne' : (steps L).map (· - 10) ≠ [] := by simpa using hsne
    have htab := (table1 _ hmt hne' _ hql).2.2
    have h2 := table2 _ hmt hne' _ hql
    rw [he] at h2
    have hp' : ((steps L).map (· - 10)).Pairwise (· < ·) := by
      rw [List.pairwise_map]
      refine hp.imp_of_mem fun {a b} ha hb hab => ?_
      have := hrs a ha
      omega
    have hmst' : m ∈ (steps L).map (· - 10) := List.mem_map.2 ⟨m + 10, hmst, by omega⟩
    have hlast := last_max _ m 0 hp' hmst' (fun e he => by
      obtain ⟨x, hx, rfl⟩ := List.mem_map.1 he
      have := hles x hx; omega)
    rw [hlast] at htab
    rw [ht, h2.1, h2.2]
    refine htab ?_
    rcases h8 with h8 | h8
    · exact Or.inl h8
    · right
      have hall : ∀ x ∈ (steps L).map (· - 10), x = 8 := fun x hx => by
        obtain ⟨y, hy, rfl⟩ := List.mem_map.1 hx
        have := h8 y (hmem y (f1.subset hy)); omega
      revert hp' hall hne'
      generalize (steps L).map (· - 10) = s
      intro hsne hp hall
      match s with
      | [] => exact absurd rfl hsne
      | [a] => rw [hall a (by simp)]
      | a :: b :: r =>
        have h1 := (List.pairwise_cons.1 hp).1 b (by simp)
        have h2 := hall a (by simp)
        have h3 := hall b (by simp)
        omega

/-- A flag naming both donors is reported as reverse mass transfer, in every class with mass transfer. -/
theorem C93_reverse (t : Txt) (h1 : '1' ∈ t) (h2 : '2' ∈ t) (ic : IC) :
    history ic t = match ic with
      | .initialMT => some "Initial RLOF"
      | .notConverged => some "Not converged"
      | .noMT => some "no RLOF"
      | .stable => some "Stable reverse mass-transfer phase"
      | .stableReverse => some "Stable reverse mass-transfer phase"
      | .unstable => some "Unstable reverse mass-transfer phase"
      | .unknown => some "unknown" := by
  have := reverse_text h1 h2
  cases ic
  case stable => exact this.1
  case unstable => exact this.2
  case initialMT => exact (const_text t).1
  case notConverged => exact (const_text t).2.1
  case noMT => exact (const_text t).2.2.1
  case stableReverse => exact (const_text t).2.2.2.1
  case unknown => exact (const_text t).2.2.2.2

/-! ### Witnesses -/

def quiet : MTCase.Row := ⟨some (-1/2), some (-1/2), some (-99), "H-rich_Core_H_burning", "H-rich_Core_H_burning"⟩
/-- The first star overflows. -/
def donor1 (s : String) : MTCase.Row := ⟨some (1/10), some (-1/2), some (-4), s, "H-rich_Core_H_burning"⟩
/-- The second star overflows. -/
def donor2 (s : String) : MTCase.Row := ⟨some (-1/2), some (1/10), some (-4), "BH", s⟩

/-- A second star which transfers mass on the main sequence and then in a state for which no case is determined: the label is not in the dictionary, and the post-processing of the grid ends with a `KeyError`. -/
theorem C93_label_total_violated : ∃ rows t, MTCase.massTransferFlag false rows = some t ∧ history .stable t = none ∧ history .unstable t = none :=
  ⟨[quiet, donor2 "H-rich_Core_H_burning", donor2 "accreted_He_Core_He_burning"], (chars! "case_A2/undetermined_MT2"), by decide +kernel⟩

/-- The same undetermined case of the first star does no harm. -/
example : MTCase.massTransferFlag false [quiet, donor1 "H-rich_Core_H_burning", donor1 "accreted_He_Core_He_burning"] = some (chars! "?case_A1") ∧
    history .stable (chars! "?case_A1") = some "Last stable RLOF during MS" := by decide +kernel

/-- Mass transfer on the main sequence and then from a star without burning is reported as last happening after the main sequence; alone it is reported as non-burning. -/
theorem C93_nonburning_violated : ∃ rows t, MTCase.massTransferFlag false rows = some t ∧ rows.filterMap MTCase.mtEntry = [1, 8] ∧
    history .stable t = some (stablePhase 2) ∧ history .stable t ≠ some (stablePhase 8) ∧ history .unstable t = some (unstablePhase 2) :=
  ⟨[quiet, donor1 "H-rich_Core_H_burning", donor1 "H-rich_non_burning"], (chars! "case_A1/nonburning1"), by decide +kernel⟩

/-- The hypotheses of the theorems on real histories. -/
example : MTCase.massTransferFlag false [quiet, donor1 "H-rich_Core_H_burning", quiet, donor1 "H-rich_Shell_H_burning", donor1 "stripped_He_Core_He_burning"] = some (chars! "case_A1/B1/BA1") ∧
    [quiet, donor1 "H-rich_Core_H_burning", quiet, donor1 "H-rich_Shell_H_burning", donor1 "stripped_He_Core_He_burning"].filterMap MTCase.mtEntry = [1, 2, 4] ∧
    history .stable (chars! "case_A1/B1/BA1") = some "Last stable RLOF during stripped He star" := by decide +kernel

example : MTCase.massTransferFlag false [quiet, donor2 "H-rich_Shell_H_burning", donor2 "H-rich_Core_He_depleted"] = some (chars! "case_B2/C2") ∧
    history .unstable (chars! "case_B2/C2") = some "Unstable RLOF during postMS" := by decide +kernel

/-- Overflow at the outer Lagrangian point is a case of its own for unstable mass transfer only. -/
theorem C93_outer_overflow : history .unstable (chars! "L2_RLOF") = some "Unstable RLOF during stripped He star" ∧
    combine .unstable (chars! "L2_RLOF") = (chars! "Unstable L2 RLOF") ∧ combine .stable (chars! "L2_RLOF") = (chars! "unknown") ∧
    combine .unstable (chars! "?L2_RLOF") = (chars! "unknown") := by decide +kernel

theorem nonburning_table : ∀ l ∈ sublists [1, 2, 3, 4, 5], l ≠ [] → ∀ q ∈ [[], ['?']], ∀ k ∈ [0, 10],
    history .stable (q ++ text ((l ++ [8]).map (· + k))) = some (if l.headD 0 ≤ 3 then "Last stable RLOF during postMS" else "Last stable RLOF during stripped He star") ∧
    history .unstable (q ++ text ((l ++ [8]).map (· + k))) = some (if l.headD 0 ≤ 3 then "Unstable RLOF during postMS" else "Unstable RLOF during stripped He star") := by
  decide +kernel

/-- **C93 (violated)** Whatever the earlier cases: if the last mass transfer is from a star without burning, the text says after the main sequence or stripped, by
the first case, and never non-burning. -/
theorem C93_nonburning_all_violated (l : List ℕ) (hl : l.Pairwise (· < ·)) (hne : l ≠ []) (hk : ∀ x ∈ l, 1 ≤ x ∧ x ≤ 5) (k : ℕ) (hs : k = 0 ∨ k = 10) :
    history .stable (text ((l ++ [8]).map (· + k))) = some (if l.headD 0 ≤ 3 then "Last stable RLOF during postMS" else "Last stable RLOF during stripped He star") ∧
    history .unstable (text ((l ++ [8]).map (· + k))) = some (if l.headD 0 ≤ 3 then "Unstable RLOF during postMS" else "Unstable RLOF during stripped He star") := by
  have hm : l ∈ sublists [1, 2, 3, 4, 5] := by
    refine mem_sublists (by decide) hl fun x hx => ?_
    obtain ⟨h1, h2⟩ := hk x hx
    simp only [List.mem_cons, List.not_mem_nil, or_false]
    omega
  have := nonburning_table l hm hne [] (by simp) k (by simpa using hs)
  simpa using this

example : history .stable (text [1, 2, 8]) = some "Last stable RLOF during postMS" :=
  (C93_nonburning_all_violated [1, 2] (by decide) (by decide) (by decide) 0 (Or.inl rfl)).1

/-- Texts of several cases are cut to 25 characters. -/
theorem C93_cut (unstable : Bool) (t : Txt) (h12 : ¬ ('1' ∈ t ∧ '2' ∈ t)) (hp : pool t = none) (hc : t ≠ (chars! "contact_during_MS")) (hL : t ≠ (chars! "L2_RLOF"))
    (hn : Frame.isIn (chars! "case_nonburning") t = false) (hs : '/' ∈ t) :
    (body unstable t).length ≤ 25 ∧
    ∀ first last : Txt, first = (if unstable then (chars! "Unstable ") else (chars! "Stable ")) ++ (spaced ((pieces t).headD [])).dropLast →
      last = (if Frame.isIn (chars! "nonburning") ((pieces t).getLastD []) then ['n'] else ((pieces t).getLastD []).dropLast) →
      body unstable t <+: first ++ last ∧ ((first ++ last).length ≤ 25 → body unstable t = first ++ last) ∧
        (25 < (first ++ last).length → (body unstable t).length = 25) := by
  have e : ∀ first last : Txt, first = (if unstable then (chars! "Unstable ") else (chars! "Stable ")) ++ (spaced ((pieces t).headD [])).dropLast →
      last = (if Frame.isIn (chars! "nonburning") ((pieces t).getLastD []) then ['n'] else ((pieces t).getLastD []).dropLast) →
      body unstable t = (first.take 25 ++ last).take 25 := by
    intro first last h1 h2
    unfold body
    rw [if_neg h12, if_neg hc, hp]
    dsimp only
    rw [if_neg (fun h => hL h.2), if_neg (by rw [hn]; decide), if_pos hs, h1, h2]
    cases unstable <;> rfl
  have e2 : ∀ a b : Txt, (a.take 25 ++ b).take 25 = (a ++ b).take 25 := by
    intro a b
    rw [List.take_append, List.take_append, List.take_take, List.length_take]
    congr 2
    omega
  constructor
  · rw [e _ _ rfl rfl, List.length_take]
    omega
  · intro first last h1 h2
    rw [e first last h1 h2, e2]
    exact ⟨List.take_prefix _ _, fun h => List.take_of_length_le h, fun h => by rw [List.length_take]; omega⟩

end Verif.MTLabel
