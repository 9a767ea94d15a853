import Verif.Chars
import Verif.Frame
import Mathlib.Tactic.Common
/-!
C82: a binary that is written to a table and read back is the same binary; what is not restored.
-/
namespace Verif.Frame

/-- The history of a property that was read, from the columns. -/
theorem history_of_lookup {props : List Name} {dflt : Name → V} {d : Cols} {n : ℕ} {p : Name} {c : List V} (h : lookup d p = some c) :
    history props dflt d n p = some c := by
  unfold history; rw [h]

theorem history_default {props : List Name} {dflt : Name → V} {d : Cols} {n : ℕ} {p : Name} (h : lookup d p = Option.none)
    (hp : p ∈ props) (hn : 0 < n) : history props dflt d n p = some (List.replicate n (dflt p)) := by
  unfold history
  rw [h]
  dsimp only
  rw [if_pos hp, ← List.replicate_succ]
  congr 2
  omega

theorem own_lookup {ks : List Name} {f : Name → List V} {ext : Cols} {n : ℕ}
    (hx : ∀ c ∈ ext, c.1 ∈ three (chars! "V_sys") ++ three (chars! "NN_dist") ∧ c.2.length = n) {p : Name} (hp : p ∈ binaryProps) :
    lookup (ks.map (fun k => (k, f k)) ++ ext) p = if p ∈ ks then some (f p) else Option.none := by
  rw [lookup_append, lookup_map, lookup_none (fun c hc e => three_not_prop c.1 (hx c hc).1 (e ▸ hp))]
  rfl

/-- A binary with complete histories of one length is written and read back: its index, all histories of the binary that were
written and are not vectors, all histories of the stars that were written, and their last values, with `None` replaced by the
null value. Any choice of known columns. Missing: vectors and `None` (see below). -/
theorem C82_history_partial {x : Binary} {n : ℕ} {fb f1 f2 : Name → List V} (h : Full x n fb f1 f2) {o o1 o2 : Sel} {pr : Bool}
    (ho : o.Known binaryProps) (hi : o.select = [] → (chars! "binary_index") ∉ o.ignore)
    (h1 : (starSel pr o1).Known starProps) (h2 : (starSel pr o2).Known starProps) (fp : V → V → V → V) (dS : Name → V) :
    ∃ t r, toDf o o1 o2 pr x = .ok t ∧ fromDf fp dS Option.none t = .ok r ∧ r.idx = some x.idx ∧
      (∀ p ∈ keys binaryProps o, p ∉ vectors → r.b p = some ((fb p).map nullify) ∧ r.curB p = (fb p).getLast?.map nullify) ∧
      (∀ p ∈ keys starProps (starSel pr o1), r.s1 p = some ((f1 p).map nullify) ∧ r.curS1 p = (f1 p).getLast?.map nullify) ∧
      (∀ p ∈ keys starProps (starSel pr o2), r.s2 p = some ((f2 p).map nullify) ∧ r.curS2 p = (f2 p).getLast?.map nullify) := by
  obtain ⟨t, r, ext, e1, e2, e3, rfl, e5, hx, e6, e7⟩ := read_ok h ho hi h1 h2 fp dS
  have hs := keys_sub ho.1
  have hs1 := keys_sub h1.1
  have hs2 := keys_sub h2.1
  refine ⟨t, _, e1, e2, e3, ?_, ?_, ?_⟩
  · intro p hp hv
    have hl : lookup (params .b t.cols) p = some ((fb p).map nullify) := by
      rw [e5, own_lookup hx (hs p hp), if_pos (List.mem_filter.2 ⟨hp, by simpa using hv⟩)]
    have hf : ¬ (fixed t.cols = true ∧ p = (chars! "separation")) := by
      rintro ⟨hf, rfl⟩
      unfold fixed at hf
      rw [hl] at hf
      simp at hf
    refine ⟨?_, ?_⟩
    · show (if _ then _ else _) = _
      rw [if_neg hf, history_of_lookup hl]
    · show (if _ then _ else _) = _
      rw [if_neg hf]
      unfold current
      rw [current_names, hl]
      · exact getLast_nullify _
      · intro c hc
        rw [e5] at hc
        apply own_before
        rcases List.mem_append.1 hc with hc | hc
        · obtain ⟨k, hk, rfl⟩ := List.mem_map.1 hc
          exact List.mem_append_left _ (hs k (List.mem_filter.1 hk).1)
        · exact List.mem_append_right _ (hx c hc).1
  · intro p hp
    have hl : lookup (params .s1 t.cols) p = some ((f1 p).map nullify) := by
      rw [e6, lookup_map, if_pos hp]
    refine ⟨history_of_lookup hl, ?_⟩
    show current _ _ _ _ = _
    unfold current
    rw [current_names, hl]
    · exact getLast_nullify _
    · intro c hc
      rw [e6] at hc
      obtain ⟨k, hk, rfl⟩ := List.mem_map.1 hc
      exact star_before _ (hs1 k hk)
  · intro p hp
    have hl : lookup (params .s2 t.cols) p = some ((f2 p).map nullify) := by
      rw [e7, lookup_map, if_pos hp]
    refine ⟨history_of_lookup hl, ?_⟩
    show current _ _ _ _ = _
    unfold current
    rw [current_names, hl]
    · exact getLast_nullify _
    · intro c hc
      rw [e7] at hc
      obtain ⟨k, hk, rfl⟩ := List.mem_map.1 hc
      exact star_before _ (hs2 k hk)

/-- Everything is written unless the caller says otherwise. -/
def all : Sel := ⟨[], []⟩

/-- A complete binary of three steps. -/
def sample : Binary where
  idx := 7
  b p := some (if p ∈ vectors then [.vec (some 1) (some 2) (some 3), .vec (some 1) (some 2) (some 3), .vec (some 4) (some 5) (some 6)]
    else [.atom 10, .none, .atom 12])
  s1 p := some [.atom p.length, .atom 21, .atom 22]
  s2 _ := some [.none, .atom 31, .atom 32]

theorem sample_full : Full sample 3 (fun p => (sample.b p).getD []) (fun p => (sample.s1 p).getD []) (fun p => (sample.s2 p).getD []) where
  b _ _ := rfl
  s1 _ _ := rfl
  s2 _ _ := rfl
  lb p _ := by
    show (if p ∈ vectors then _ else _ : List V).length = 3
    split <;> rfl
  l1 _ _ := rfl
  l2 _ _ := rfl
  pos := by decide
  vec := by
    intro v hv
    have : v ∈ [V.vec (some 1) (some 2) (some 3), .vec (some 1) (some 2) (some 3), .vec (some 4) (some 5) (some 6)] := hv
    simp only [List.mem_cons, List.not_mem_nil, or_false] at this
    rcases this with rfl | rfl | rfl <;> exact ⟨_, _, _, rfl⟩
  vec' := by
    intro v hv
    have : v ∈ [V.vec (some 1) (some 2) (some 3), .vec (some 1) (some 2) (some 3), .vec (some 4) (some 5) (some 6)] := hv
    simp only [List.mem_cons, List.not_mem_nil, or_false] at this
    rcases this with rfl | rfl | rfl <;> exact ⟨_, _, _, rfl⟩

theorem all_known_b : all.Known binaryProps := ⟨by simp [all], by decide +kernel⟩

theorem all_known_s : (starSel false all).Known starProps := ⟨by simp [all, starSel], by decide +kernel⟩

/-- The hypotheses of `C82_history_partial` hold for `sample`, and 16 properties of the binary and 55 of each star are
concerned. -/
example (fp : V → V → V → V) (dS : Name → V) := C82_history_partial sample_full (o := all) (o1 := all) (o2 := all) (pr := false)
  all_known_b (by simp [all]) all_known_s all_known_s fp dS

example : ((keys binaryProps all).filter (· ∉ vectors)).length = 16 ∧ (keys starProps (starSel false all)).length = 55 := by
  decide +kernel

/-- A history without `None` is read back as it was; one with `None` is not. -/
theorem C82_none (l : List V) : l.map nullify = l ↔ V.none ∉ l := by
  induction l with
  | nil => simp
  | cons v l ih =>
    simp only [List.map_cons, List.cons.injEq, ih, List.mem_cons, not_or]
    constructor
    · rintro ⟨h1, h2⟩
      refine ⟨?_, h2⟩
      rintro rfl
      simp [nullify] at h1
    · rintro ⟨h1, h2⟩
      refine ⟨?_, h2⟩
      cases v <;> simp_all [nullify]

/-- A number of the table, or none. -/
def number : Option ℚ → V
  | Option.none => .null
  | some q => .vec (some q) Option.none Option.none

/-- **C82** A column of vectors is written as three columns, of the first, the second and the third components; the other columns stay. -/
theorem C82_components (p out : Name) (cols : Cols) (l : List (Option ℚ × Option ℚ × Option ℚ))
    (h : get? cols p = some (l.map fun v => .vec v.1 v.2.1 v.2.2)) :
    spread p out cols = .ok ((cols.filter fun c => c.1 != p) ++
      [(out ++ (chars! "_x"), l.map fun v => number v.1), (out ++ (chars! "_y"), l.map fun v => number v.2.1), (out ++ (chars! "_z"), l.map fun v => number v.2.2)]) := by
  have hx : ∀ l : List (Option ℚ × Option ℚ × Option ℚ), mapE (component 0) (l.map fun v => .vec v.1 v.2.1 v.2.2) = .ok (l.map fun v => number v.1) := by
    intro l
    induction l with
    | nil => rfl
    | cons v l ih =>
      obtain ⟨a, b, c⟩ := v
      simp only [List.map_cons, mapE, ih, component]
      cases a <;> rfl
  have hy : ∀ l : List (Option ℚ × Option ℚ × Option ℚ), mapE (component 1) (l.map fun v => .vec v.1 v.2.1 v.2.2) = .ok (l.map fun v => number v.2.1) := by
    intro l
    induction l with
    | nil => rfl
    | cons v l ih =>
      obtain ⟨a, b, c⟩ := v
      simp only [List.map_cons, mapE, ih, component]
      cases b <;> rfl
  have hz : ∀ l : List (Option ℚ × Option ℚ × Option ℚ), mapE (component 2) (l.map fun v => .vec v.1 v.2.1 v.2.2) = .ok (l.map fun v => number v.2.2) := by
    intro l
    induction l with
    | nil => rfl
    | cons v l ih =>
      obtain ⟨a, b, c⟩ := v
      simp only [List.map_cons, mapE, ih, component]
      cases c <;> rfl
  unfold spread
  rw [h]
  simp only [hx, hy, hz]

/-- The systemic velocity is not restored: whatever it was, a binary read back was always at rest. -/
theorem C82_velocity_violated {x : Binary} {n : ℕ} {fb f1 f2 : Name → List V} (h : Full x n fb f1 f2) {o o1 o2 : Sel} {pr : Bool}
    (ho : o.Known binaryProps) (hi : o.select = [] → (chars! "binary_index") ∉ o.ignore)
    (h1 : (starSel pr o1).Known starProps) (h2 : (starSel pr o2).Known starProps) (fp : V → V → V → V) (dS : Name → V) :
    ∃ t r, toDf o o1 o2 pr x = .ok t ∧ fromDf fp dS Option.none t = .ok r ∧
      ∀ p ∈ vectors, r.b p = some (List.replicate n (.vec (some 0) (some 0) (some 0))) ∧
        r.curB p = some (.vec (some 0) (some 0) (some 0)) := by
  obtain ⟨t, r, ext, e1, e2, e3, rfl, e5, hx, e6, e7⟩ := read_ok h ho hi h1 h2 fp dS
  have hs := keys_sub ho.1
  refine ⟨t, _, e1, e2, ?_⟩
  intro p hp
  have hb : ∀ p ∈ vectors, p ∈ binaryProps := by decide +kernel
  have hd : ∀ p ∈ vectors, defaultB p = .vec (some 0) (some 0) (some 0) := by decide +kernel
  have hns : ∀ p ∈ vectors, p ≠ (chars! "separation") := by decide +kernel
  have hl : lookup (params .b t.cols) p = Option.none := by
    rw [e5, own_lookup hx (hb p hp), if_neg]
    intro hh
    have := (List.mem_filter.1 hh).2
    simp [hp] at this
  have hf : ¬ (fixed t.cols = true ∧ p = (chars! "separation")) := fun hh => hns p hp hh.2
  refine ⟨?_, ?_⟩
  · show (if _ then _ else _) = _
    rw [if_neg hf, history_default hl (hb p hp) h.pos, hd p hp]
  · show (if _ then _ else _) = _
    rw [if_neg hf]
    unfold current
    rw [current_names, hl]
    · dsimp only
      rw [if_pos (hb p hp), hd p hp]
    · intro c hc
      rw [e5] at hc
      apply own_before
      rcases List.mem_append.1 hc with hc | hc
      · obtain ⟨k, hk, rfl⟩ := List.mem_map.1 hc
        exact List.mem_append_left _ (hs k (List.mem_filter.1 hk).1)
      · exact List.mem_append_right _ (hx c hc).1

/-- The velocity of `sample` is not zero. -/
example : sample.b (chars! "V_sys") ≠ some (List.replicate 3 (.vec (some 0) (some 0) (some 0))) := by decide +kernel

/-- A property that was left out is read as the default of a new binary or star, as often as there are rows. -/
theorem C82_left_out {fp : V → V → V → V} {dS : Name → V} {g : Option ℕ} {t : Table} {n : ℕ} {nm : Name} (hn : 0 < n)
    (hl : ∀ c ∈ t.cols, c.2.length = n) (hne : t.cols ≠ []) (hi : t.idxName = some nm) :
    ∃ r, fromDf fp dS g t = .ok r ∧
      (∀ p ∈ binaryProps, (∀ c ∈ t.cols, parse c.1 ≠ (.b, p)) → p ≠ (chars! "separation") → r.b p = some (List.replicate n (defaultB p))) ∧
      (∀ p ∈ starProps, (∀ c ∈ t.cols, parse c.1 ≠ (.s1, p)) → r.s1 p = some (List.replicate n (dS p))) ∧
      (∀ p ∈ starProps, (∀ c ∈ t.cols, parse c.1 ≠ (.s2, p)) → r.s2 p = some (List.replicate n (dS p))) := by
  have key : ∀ w p, (∀ c ∈ t.cols, parse c.1 ≠ (w, p)) → lookup (params w t.cols) p = Option.none := by
    intro w p hc
    apply lookup_none
    intro c hm e
    obtain ⟨a, ha, hb⟩ := List.mem_filterMap.1 hm
    split at hb
    · rename_i hw
      simp only [Option.some.injEq] at hb
      subst hb
      exact hc a ha (Prod.ext hw e)
    · simp at hb
  refine ⟨_, fromDf_ok hn hl hne hi, ?_, ?_, ?_⟩
  · intro p hp hc hs
    show (if _ then _ else _) = _
    rw [if_neg (fun hh => hs hh.2), history_default (key _ _ hc) hp hn]
  · intro p hp hc
    exact history_default (key _ _ hc) hp hn
  · intro p hp hc
    exact history_default (key _ _ hc) hp hn

/-- Every history that is read has as many entries as the table has rows. -/
theorem C82_lengths {fp : V → V → V → V} {dS : Name → V} {g : Option ℕ} {t : Table} {n : ℕ} {nm : Name} (hn : 0 < n)
    (hl : ∀ c ∈ t.cols, c.2.length = n) (hne : t.cols ≠ []) (hi : t.idxName = some nm) :
    ∃ r, fromDf fp dS g t = .ok r ∧ (∀ p c, r.b p = some c → c.length = n) ∧ (∀ p c, r.s1 p = some c → c.length = n) ∧
      (∀ p c, r.s2 p = some c → c.length = n) := by
  have hpar : ∀ w, ∀ c ∈ params w t.cols, c.2.length = n := by
    intro w c hc
    obtain ⟨a, ha, hb⟩ := List.mem_filterMap.1 hc
    split at hb
    · simp only [Option.some.injEq] at hb
      subst hb
      exact hl a ha
    · simp at hb
  have hh : ∀ w (props : List Name) (dflt : Name → V) p c, history props dflt (params w t.cols) n p = some c → c.length = n := by
    intro w props dflt p c hc
    unfold history at hc
    cases hq : lookup (params w t.cols) p with
    | some d =>
      rw [hq] at hc
      simp only [Option.some.injEq] at hc
      subst hc
      exact hpar w _ (lookup_mem hq)
    | none =>
      rw [hq] at hc
      dsimp only at hc
      split at hc
      · simp only [Option.some.injEq] at hc
        subst hc
        simp; omega
      · simp at hc
  have hmass : ∀ w, (masses dS (params w t.cols) n).length = n := by
    intro w
    have hm : (chars! "mass") ∈ starProps := by decide +kernel
    unfold masses
    cases hq : history starProps dS (params w t.cols) n (chars! "mass") with
    | some c => exact hh _ _ _ _ _ hq
    | none =>
      unfold history at hq
      cases h2 : lookup (params w t.cols) (chars! "mass") with
      | some c => rw [h2] at hq; simp at hq
      | none => rw [h2] at hq; dsimp only at hq; rw [if_pos hm] at hq; simp at hq
  refine ⟨_, fromDf_ok hn hl hne hi, ?_, fun p c => hh .s1 _ _ p c, fun p c => hh .s2 _ _ p c⟩
  intro p c hc
  change (if _ then _ else _) = _ at hc
  split at hc
  · rename_i hf
    simp only [Option.some.injEq] at hc
    subst hc
    have h2 : (lookup (params .b t.cols) (chars! "orbital_period")).isSome = true := by
      have := hf.1
      unfold fixed at this
      simp only [Bool.and_eq_true] at this
      exact this.2
    obtain ⟨d, hd⟩ := Option.isSome_iff_exists.1 h2
    have h3 := hpar .b _ (lookup_mem hd)
    simp only at h3
    unfold separations
    rw [hd]
    simp [hmass, h3]
  · exact hh _ _ _ _ _ hc

/-- A table with periods but without separations: the separation of each row is that of its period and masses. -/
theorem C82_separation {fp : V → V → V → V} {dS : Name → V} {g : Option ℕ} {t : Table} {n : ℕ} {nm : Name} (hn : 0 < n)
    (hl : ∀ c ∈ t.cols, c.2.length = n) (hne : t.cols ≠ []) (hi : t.idxName = some nm) {P m1 m2 : List V}
    (hP : lookup (params .b t.cols) (chars! "orbital_period") = some P) (hs : lookup (params .b t.cols) (chars! "separation") = Option.none)
    (h1 : lookup (params .s1 t.cols) (chars! "mass") = some m1) (h2 : lookup (params .s2 t.cols) (chars! "mass") = some m2) :
    ∃ r, fromDf fp dS g t = .ok r ∧ ∃ s, r.b (chars! "separation") = some s ∧ r.curB (chars! "separation") = s.getLast? ∧
      ∀ i : ℕ, s[i]? = (P[i]?.bind fun p => m1[i]?.bind fun a => m2[i]?.map fun b => fp p a b) := by
  have hf : fixed t.cols = true := by unfold fixed; rw [hP, hs]; rfl
  refine ⟨_, fromDf_ok hn hl hne hi, separations fp dS t.cols n, ?_, ?_, ?_⟩
  · show (if _ then _ else _) = _
    rw [if_pos ⟨hf, rfl⟩]
  · show (if _ then _ else _) = _
    rw [if_pos ⟨hf, rfl⟩]
  · intro i
    have e1 : masses dS (params .s1 t.cols) n = m1 := by unfold masses; rw [history_of_lookup h1]; rfl
    have e2 : masses dS (params .s2 t.cols) n = m2 := by unfold masses; rw [history_of_lookup h2]; rfl
    unfold separations
    rw [hP, e1, e2]
    simp only [Option.getD_some, List.getElem?_map, List.zip, List.getElem?_zipWith]
    cases P[i]? <;> cases m1[i]? <;> cases m2[i]? <;> rfl

/-- A table with separations but without periods: the periods are not computed (the code asks for a column `seperation`). -/
theorem C82_period_violated {fp : V → V → V → V} {dS : Name → V} {g : Option ℕ} {t : Table} {n : ℕ} {nm : Name} (hn : 0 < n)
    (hl : ∀ c ∈ t.cols, c.2.length = n) (hne : t.cols ≠ []) (hi : t.idxName = some nm)
    (hP : ∀ c ∈ t.cols, parse c.1 ≠ (.b, (chars! "orbital_period"))) :
    ∃ r, fromDf fp dS g t = .ok r ∧ r.b (chars! "orbital_period") = some (List.replicate n .none) := by
  obtain ⟨r, hr, hb, _⟩ := C82_left_out (fp := fp) (dS := dS) (g := g) hn hl hne hi
  refine ⟨r, hr, ?_⟩
  rw [hb _ (by decide +kernel) hP (by decide +kernel)]
  have : defaultB (chars! "orbital_period") = .none := by decide +kernel
  rw [this]

/-- A table of two rows without a period. -/
def noPeriod : Table := ⟨some (chars! "binary_index"), 3, [((chars! "separation"), [.atom 1, .atom 2]), ((chars! "S1_mass"), [.atom 3, .atom 4]),
  ((chars! "S2_mass"), [.atom 5, .atom 6])]⟩

example : ∃ r, fromDf (fun p _ _ => p) (fun _ => .null) Option.none noPeriod = .ok r ∧ r.b (chars! "orbital_period") = some [.none, .none] :=
  C82_period_violated (n := 2) (nm := (chars! "binary_index")) (by decide) (by decide +kernel) (by decide) rfl (by decide +kernel)

/-- A table of two rows without a separation. -/
def noSeparation : Table := ⟨some (chars! "binary_index"), 3, [((chars! "orbital_period"), [.atom 1, .atom 2]), ((chars! "S1_mass"), [.atom 3, .atom 4]),
  ((chars! "S2_mass"), [.atom 5, .atom 6])]⟩

example :=
  C82_separation (fp := fun p _ _ => p) (dS := fun _ => .null) (g := Option.none) (t := noSeparation) (n := 2) (nm := (chars! "binary_index")) (P := [.atom 1, .atom 2]) (m1 := [.atom 3, .atom 4]) (m2 := [.atom 5, .atom 6])
    (by decide) (by decide +kernel) (by decide) rfl (by decide +kernel) (by decide +kernel) (by decide +kernel) (by decide +kernel)

/-- A single row handed over as a series is never read, although the code provides for it. -/
theorem C82_series_violated (fp : V → V → V → V) (dS : Name → V) (g : Option ℕ) (row : List (Name × V)) :
    ∃ e, fromDf fp dS g (ofSeries row) = .error e ∧ (row ≠ [] → e = .type) := by
  cases row with
  | nil => exact ⟨.assertion, rfl, fun h => absurd rfl h⟩
  | cons c rest =>
    refine ⟨.type, ?_, fun _ => rfl⟩
    have h1 : ((rest.map fun c : Name × V => (c.1, [c.2])).any fun d => d.2.length != [c.2].length) = false := by
      rw [List.any_eq_false]
      intro d hd
      obtain ⟨e, _, rfl⟩ := List.mem_map.1 hd
      simp
    unfold fromDf ofSeries
    simp only [List.map_cons]
    rw [h1, if_neg (by simp)]

/-- Columns of different lengths are refused. -/
theorem C82_unequal {fp : V → V → V → V} {dS : Name → V} {g : Option ℕ} {t : Table} {c d : Name × List V} (hc : c ∈ t.cols)
    (hd : d ∈ t.cols) (hn : c.2.length ≠ d.2.length) : fromDf fp dS g t = .error .assertion := by
  obtain ⟨i, k, cols⟩ := t
  cases cols with
  | nil => rfl
  | cons c0 rest =>
    have : (rest.any fun c => c.2.length != c0.2.length) = true := by
      rw [List.any_eq_true]
      rcases List.mem_cons.1 hc with rfl | hc
      · rcases List.mem_cons.1 hd with rfl | hd
        · exact absurd rfl hn
        · exact ⟨d, hd, by simpa using Ne.symm hn⟩
      · by_cases hh : c.2.length = c0.2.length
        · rcases List.mem_cons.1 hd with rfl | hd
          · exact absurd hh hn
          · exact ⟨d, hd, by simpa using fun e => hn (hh.trans e.symm)⟩
        · exact ⟨c, hc, by simpa using hh⟩
    unfold fromDf
    dsimp only
    rw [if_pos this]

/-- The index: the one asked for, if it is not zero; else that of the table, if its index is so named. -/
theorem C82_index {fp : V → V → V → V} {dS : Name → V} {g : Option ℕ} {t : Table} {n : ℕ} {nm : Name} (hn : 0 < n)
    (hl : ∀ c ∈ t.cols, c.2.length = n) (hne : t.cols ≠ []) (hi : t.idxName = some nm) :
    ∃ r, fromDf fp dS g t = .ok r ∧ (∀ k, g = some (k + 1) → r.idx = some (k + 1)) ∧
      (g.getD 0 = 0 → isIn (chars! "binary_index") nm = true → r.idx = some t.idx) ∧
      (isIn (chars! "binary_index") nm = false → r.idx = g) := by
  refine ⟨_, fromDf_ok hn hl hne hi, ?_, ?_, ?_⟩
  · rintro k rfl
    show (if _ then _ else _) = _
    rw [if_neg (by simp)]
  · intro h1 h2
    show (if _ then _ else _) = _
    rw [if_pos (by rw [h1, h2]; rfl)]
  · intro h2
    show (if _ then _ else _) = _
    rw [if_neg (by rw [h2]; simp)]

/-- Asking for index zero is not obeyed. -/
theorem C82_index_violated : ∃ (fp : V → V → V → V) (dS : Name → V) (t : Table) (r : Read), fromDf fp dS (some 0) t = .ok r ∧ r.idx ≠ some 0 := by
  obtain ⟨r, hr, _, h, _⟩ := C82_index (fp := fun p _ _ => p) (dS := fun _ => .null) (g := some 0) (t := noPeriod) (n := 2)
    (nm := (chars! "binary_index")) (by decide) (by decide +kernel) (by decide) rfl
  refine ⟨_, _, _, r, hr, ?_⟩
  rw [h rfl (by decide +kernel)]
  decide

/-! ### Histories of different lengths -/

/-- Writing makes all histories that are written equally long, in the binary itself, and leaves what they held. -/
theorem C82_padding {o : Sel} {h : Hist} {c : Cols} (hc : leftIn o h = .ok c) :
    (∀ a ∈ c, ∀ b ∈ c, a.2.length = b.2.length) ∧ ∀ a ∈ c, ∃ d, h a.1 = some d ∧ d <+: a.2 := by
  have hcol : ∀ {ps : List Name} {r : Cols}, collect h ps = .ok r → ∀ a ∈ r, h a.1 = some a.2 := by
    intro ps
    induction ps with
    | nil =>
      intro r hr a ha
      simp only [collect, Except.ok.injEq] at hr
      subst hr
      simp at ha
    | cons p ps ih =>
      intro r hr a ha
      simp only [collect] at hr
      cases hp : h p with
      | none => rw [hp] at hr; simp at hr
      | some d =>
        rw [hp] at hr
        dsimp only at hr
        cases hq : collect h ps with
        | error e => rw [hq] at hr; simp at hr
        | ok q =>
          rw [hq] at hr
          simp only [Except.ok.injEq] at hr
          subst hr
          rcases List.mem_cons.1 ha with rfl | ha
          · exact hp
          · exact ih hq a ha
  unfold leftIn at hc
  cases hq : collect h (keys binaryProps o) with
  | error e => rw [hq] at hc; simp at hc
  | ok q =>
    rw [hq] at hc
    simp only [Except.ok.injEq] at hc
    subst hc
    have hlen : ∀ a ∈ fillUp fillBinary q, a.2.length = maxLen q := by
      intro a ha
      obtain ⟨b, hb, rfl⟩ := List.mem_map.1 ha
      have := le_maxLen b hb
      simp; omega
    refine ⟨fun a ha b hb => (hlen a ha).trans (hlen b hb).symm, ?_⟩
    intro a ha
    obtain ⟨b, hb, rfl⟩ := List.mem_map.1 ha
    exact ⟨b.2, hcol hq b hb, List.prefix_append _ _⟩

/-- So writing a table can change the binary that is written. -/
theorem C82_padding_violated : ∃ (o : Sel) (h : Hist) (c : Cols), leftIn o h = .ok c ∧ ∃ a ∈ c, h a.1 ≠ some a.2 :=
  ⟨⟨[], [(chars! "time"), (chars! "event")]⟩, fun p => some (if p = (chars! "time") then [.atom 1, .atom 2] else [.atom 3]), _, rfl,
    ((chars! "event"), [.atom 3, .none]), by decide +kernel, by decide +kernel⟩

/-- Histories are always filled up with `None`: the value for the type of the property is looked for under the name of the
history, where it is never found. -/
theorem C82_filler_violated (p : Name) : fillBinary p = .none ∧
    (filler (chars! "state") = .atom 0 ∧ filler (chars! "time") = .null ∧ filler (chars! "V_sys") = .vec Option.none Option.none Option.none) := by
  refine ⟨?_, by decide +kernel⟩
  have hnot : ∀ k ∈ binaryProps, ¬ ((chars! "_history") <:+ k) := by decide +kernel
  have hp : p ++ (chars! "_history") ∉ binaryProps := fun h => hnot _ h (List.suffix_append _ _)
  have h1 : p ++ (chars! "_history") ∉ [(chars! "state"), (chars! "event"), (chars! "mass_transfer_case")] := by
    intro h
    have hs : ∀ k ∈ [(chars! "state"), (chars! "event"), (chars! "mass_transfer_case")], k ∈ binaryProps := by decide +kernel
    exact hp (hs _ h)
  have h2 : p ++ (chars! "_history") ∉ [(chars! "V_sys"), (chars! "nearest_neighbour_distance")] := by
    intro h
    have hs : ∀ k ∈ [(chars! "V_sys"), (chars! "nearest_neighbour_distance")], k ∈ binaryProps := by decide +kernel
    exact hp (hs _ h)
  unfold fillBinary filler dtypeB
  rw [if_neg h1, if_neg h2, if_neg hp]

/-- Therefore a binary whose history of velocities is shorter than another history cannot be written, for any choice of columns
with both. -/
theorem C82_short_violated {o : Sel} {h : Hist} {f : Name → List V} (hh : ∀ p ∈ keys binaryProps o, h p = some (f p))
    (hv : (chars! "V_sys") ∈ keys binaryProps o) {q : Name} (hq : q ∈ keys binaryProps o) (hs : (f (chars! "V_sys")).length < (f q).length) :
    ∃ e, ownDf o h = .error e := by
  unfold ownDf
  split
  · exact ⟨_, rfl⟩
  · rw [collect_ok hh]
    split
    · exact ⟨_, rfl⟩
    · exact ⟨_, rfl⟩
    · rename_i cols _ e
      simp only [Except.ok.injEq] at e
      refine ⟨.type, ?_⟩
      subst e
      set cols := (keys binaryProps o).map fun p => (p, f p) with hcols
      have hmax : (f q).length ≤ maxLen cols := le_maxLen (q, f q) (by rw [hcols]; exact List.mem_map.2 ⟨q, hq, rfl⟩)
      have hm : ((fillUp fillBinary cols).map fun c => (c.1, c.2.map nullify)) =
          (keys binaryProps o).map fun p => (p, (f p ++ List.replicate (maxLen cols - (f p).length) (fillBinary p)).map nullify) := by
        unfold fillUp
        conv_lhs => rw [hcols]
        simp only [List.map_map]
        rw [hcols]
        rfl
      have hg : get? ((fillUp fillBinary cols).map fun c => (c.1, c.2.map nullify)) (chars! "V_sys") =
          some ((f (chars! "V_sys") ++ List.replicate (maxLen cols - (f (chars! "V_sys")).length) (fillBinary (chars! "V_sys"))).map nullify) := by
        rw [hm, get?_map, if_pos hv]
      have hbad : ∃ v ∈ (f (chars! "V_sys") ++ List.replicate (maxLen cols - (f (chars! "V_sys")).length) (fillBinary (chars! "V_sys"))).map nullify,
          ∀ a b c, v ≠ .vec a b c := by
        refine ⟨.null, ?_, by simp⟩
        refine List.mem_map.2 ⟨.none, ?_, rfl⟩
        refine List.mem_append_right _ (List.mem_replicate.2 ⟨by omega, (C82_filler_violated _).1.symm⟩)
      unfold spread
      rw [hg]
      simp only [mapE_error 0 hbad]

example : ∃ e, ownDf ⟨[], [(chars! "V_sys"), (chars! "time")]⟩ (fun p => some (if p = (chars! "time") then [.atom 1, .atom 2] else
    [.vec (some 1) (some 1) (some 1)])) = .error e :=
  C82_short_violated (f := fun p => if p = (chars! "time") then [.atom 1, .atom 2] else [.vec (some 1) (some 1) (some 1)])
    (fun _ _ => rfl) (by decide +kernel) (q := (chars! "time")) (by decide +kernel) (by decide +kernel)

/-- Each core has its mass and its radius among the columns of a star, and each element its fractions in the centre and at the surface. -/
theorem C82_star_columns :
    (∀ c ∈ [(chars! "he_core"), (chars! "c_core"), (chars! "o_core"), (chars! "co_core")],
      c ++ (chars! "_mass") ∈ starProps ∧ c ++ (chars! "_radius") ∈ starProps) ∧
    (∀ e ∈ [(chars! "h1"), (chars! "he4"), (chars! "c12"), (chars! "n14"), (chars! "o16")],
      (chars! "center_") ++ e ∈ starProps ∧ (chars! "surface_") ++ e ∈ starProps) ∧ starProps.Nodup := by decide +kernel

end Verif.Frame
