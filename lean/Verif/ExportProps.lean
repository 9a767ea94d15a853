import Verif.Export
import Verif.ChunkProps
import Mathlib.Tactic.Linarith
/-!
Property theorems for exporting a selection: C31.
-/
namespace Verif.Export
open Verif.Table Verif.Chunk

theorem chunks_ne_nil {α : Type} (n : ℕ) : ∀ (k : ℕ) (l : List α), l.length ≤ k → ∀ c ∈ chunks n l, c ≠ [] := by
  intro k
  induction k with
  | zero => intro l hl c hc; rw [List.eq_nil_of_length_eq_zero (Nat.le_zero.1 hl), chunks_nil] at hc; simp at hc
  | succ k ih =>
    intro l hl c hc
    by_cases h : l = []
    · subst h; rw [chunks_nil] at hc; simp at hc
    · by_cases hn : n = 0
      · subst hn; rw [chunks_zero] at hc; simp at hc
      · have := List.length_pos_of_ne_nil h
        rw [chunks_cons n l h hn] at hc
        rcases List.mem_cons.1 hc with rfl | hc
        · intro h0
          have := congrArg List.length h0
          simp only [List.length_take, List.length_nil] at this
          omega
        · exact ih _ (by rw [List.length_drop]; omega) c hc

theorem overPieces_ok {δ : Type} (f : List ℤ → Except Err (Rows δ)) (g : List ℤ → Rows δ) : ∀ L : List (List ℤ),
    (∀ c ∈ L, f c = .ok (g c)) → overPieces f L = .ok (L.flatMap g) := by
  intro L
  induction L with
  | nil => intro _; rfl
  | cons c L ih =>
    intro h
    simp only [overPieces, h c List.mem_cons_self, ih fun c' hc' => h c' (List.mem_cons_of_mem _ hc'), List.flatMap_cons]

/-- Every label of the selection occurs in the table. -/
def Covers {δ : Type} (rows : Rows δ) (sel : List ℤ) : Prop := ∀ i ∈ sel, ∃ r ∈ rows, r.1 = i

theorem byLabels_pieces {δ : Type} (rows : Rows δ) (sel : List ℤ) (cs : ℕ) (hcs : cs ≠ 0) (hc : Covers rows sel) :
    overPieces (byLabels rows) (chunks cs sel) = .ok ((chunks cs sel).flatMap fun c => rows.filter fun r => decide (r.1 ∈ c)) := by
  refine overPieces_ok _ _ _ fun c hcm => ?_
  unfold byLabels
  refine if_neg ?_
  obtain ⟨i, hi⟩ := List.exists_mem_of_ne_nil c (chunks_ne_nil cs _ sel le_rfl c hcm)
  have his : i ∈ sel := by
    rw [← chunks_flatten cs hcs _ sel le_rfl]; exact List.mem_flatten.2 ⟨c, hcm, hi⟩
  obtain ⟨r, hr, rfl⟩ := hc i his
  exact List.ne_nil_of_mem (List.mem_filter.2 ⟨hr, by simpa using hi⟩)

theorem byLoc_pieces {δ : Type} (rows : Rows δ) (sel : List ℤ) (cs : ℕ) (hcs : cs ≠ 0) (hc : Covers rows sel) :
    overPieces (byLoc rows) (chunks cs sel) = .ok (sel.flatMap fun i => rows.filter fun r => decide (r.1 = i)) := by
  rw [overPieces_ok (byLoc rows) (fun c => c.flatMap fun i => rows.filter fun r => decide (r.1 = i))]
  · have : ∀ L : List (List ℤ), L.flatMap (fun c => c.flatMap fun i => rows.filter fun r => decide (r.1 = i))
        = L.flatten.flatMap fun i => rows.filter fun r => decide (r.1 = i) := by
      intro L
      induction L with
      | nil => rfl
      | cons a L ih => rw [List.flatMap_cons, ih, List.flatten_cons, List.flatMap_append]
    rw [this, chunks_flatten cs hcs _ sel le_rfl]
  · intro c hcm
    unfold byLoc
    refine if_pos ?_
    rw [List.all_eq_true]
    intro i hi
    have his : i ∈ sel := by
      rw [← chunks_flatten cs hcs _ sel le_rfl]; exact List.mem_flatten.2 ⟨c, hcm, hi⟩
    obtain ⟨r, hr, rfl⟩ := hc i his
    simp only [decide_eq_true_eq]
    exact List.mem_map.2 ⟨r, hr, rfl⟩

theorem filter_union_perm {δ : Type} (rows : Rows δ) (a b : List ℤ) (hd : List.Disjoint a b) :
    (rows.filter (fun r => decide (r.1 ∈ a)) ++ rows.filter (fun r => decide (r.1 ∈ b))).Perm
      (rows.filter fun r => decide (r.1 ∈ a ++ b)) := by
  have h := List.filter_append_perm (fun r => decide (r.1 ∈ a)) (rows.filter fun r => decide (r.1 ∈ a ++ b))
  rw [List.filter_filter, List.filter_filter] at h
  refine List.Perm.trans (List.Perm.of_eq ?_) h
  congr 1
  · refine List.filter_congr fun r _ => ?_
    by_cases h1 : r.1 ∈ a <;> simp [h1]
  · refine List.filter_congr fun r _ => ?_
    by_cases h1 : r.1 ∈ a
    · have : r.1 ∉ b := fun h2 => hd h1 h2
      simp [h1, this]
    · simp [h1]

theorem flatMap_filter_perm {δ : Type} (rows : Rows δ) : ∀ L : List (List ℤ), L.flatten.Nodup →
    (L.flatMap fun c => rows.filter fun r => decide (r.1 ∈ c)).Perm (rows.filter fun r => decide (r.1 ∈ L.flatten)) := by
  intro L
  induction L with
  | nil => intro _; simp
  | cons c L ih =>
    intro h
    rw [List.flatten_cons] at h
    obtain ⟨-, h2, h3⟩ := List.nodup_append'.1 h
    rw [List.flatMap_cons, List.flatten_cons]
    exact ((ih h2).append_left _).trans (filter_union_perm rows c L.flatten h3)

theorem le_foldl_max : ∀ (l : List ℤ) (a x : ℤ), x = a ∨ x ∈ l → x ≤ l.foldl max a := by
  intro l
  induction l with
  | nil => intro a x h; simp only [List.not_mem_nil, or_false] at h; exact le_of_eq h
  | cons b l ih =>
    intro a x h
    rw [List.foldl_cons]
    rcases h with rfl | h
    · exact (le_max_left _ _).trans (ih _ _ (Or.inl rfl))
    · rcases List.mem_cons.1 h with rfl | h
      · exact (le_max_right _ _).trans (ih _ _ (Or.inl rfl))
      · exact ih _ _ (Or.inr h)

theorem lastIndex_ge {α β γ : Type} (s : Store α β γ) : ∀ r ∈ s.one, r.1 < firstNew (lastIndex s) := by
  intro r hr
  have hne : s.one ≠ [] := List.ne_nil_of_mem hr
  have : r.1 ≤ lastIndex s := by
    unfold lastIndex
    rw [if_pos hne]
    exact le_foldl_max _ _ _ (Or.inr (List.mem_map.2 ⟨r, hr, rfl⟩))
  unfold firstNew
  split_ifs <;> omega

/-- The target as it is before rows are added. -/
def target {α β γ : Type} (old : Option (Store α β γ)) (append : Bool) : Store α β γ :=
  if append then old.getD Store.empty else Store.empty

/-- The call is allowed: a proper file name, not both flags, permission to touch an existing file, a known metallicity. -/
def Allowed {α β γ : Type} (P : Pop α β γ) (nameOk : Bool) (old : Option (Store α β γ)) (overwrite append : Bool) : Prop :=
  nameOk = true ∧ ¬ (append = true ∧ overwrite = true) ∧ (old = none ∨ overwrite = true ∨ append = true) ∧
    (P.hasMet = true ∨ P.mass.length ≤ 1)

/-- Everything selected is in every table. -/
def AllThere {α β γ : Type} (P : Pop α β γ) (sel : List ℤ) : Prop :=
  Covers P.one sel ∧ Covers P.hist sel ∧ Covers P.lens sel ∧ ∀ c, P.chan = some c → Covers c sel

theorem export_eq {α β γ : Type} (P : Pop α β γ) (nameOk : Bool) (old : Option (Store α β γ)) (overwrite append : Bool) (cs hcs : ℕ)
    (sel : List ℤ) (h : Allowed P nameOk old overwrite append) (hc : cs ≠ 0) (hh : hcs ≠ 0) (ht : AllThere P sel) :
    exportSelection P nameOk old overwrite append cs hcs sel =
      .ok (⟨(target old append).one ++ relabel (firstNew (lastIndex (target old append))) sel
              (fillMet P ((chunks cs sel).flatMap fun c => P.one.filter fun r => decide (r.1 ∈ c))),
            (target old append).hist ++ relabel (firstNew (lastIndex (target old append))) sel
              ((chunks hcs sel).flatMap fun c => P.hist.filter fun r => decide (r.1 ∈ c)),
            (target old append).chan ++ relabel (firstNew (lastIndex (target old append))) sel
              (match P.chan with
                | none => []
                | some c => sel.flatMap fun i => c.filter fun r => decide (r.1 = i)),
            (target old append).lens ++ relabel (firstNew (lastIndex (target old append))) sel
              (sel.flatMap fun i => P.lens.filter fun r => decide (r.1 = i)),
            some (match (target old append).mass with
              | some t => groupSum (t ++ P.mass.map fun r => (r.1, r.2.1, sel.length))
              | none => P.mass.map fun r => (r.1, r.2.1, sel.length))⟩,
          { P with mass := P.mass.map fun r => (r.1, r.2.1, sel.length) }) := by
  obtain ⟨h1, h2, h3, h4⟩ := h
  obtain ⟨t1, t2, t3, t4⟩ := ht
  have c1 : (!nameOk) = false := by simp [h1]
  have c2 : (append && overwrite) = false := by
    cases append <;> cases overwrite <;> simp_all
  have c3 : (old.isSome && !overwrite && !append) = false := by
    rcases h3 with rfl | rfl | rfl <;> simp
  have c4 : (!P.hasMet && decide (P.mass.length > 1)) = false := by
    rcases h4 with h4 | h4
    · simp [h4]
    · rw [decide_eq_false (by omega), Bool.and_false]
  have hch : chanPieces P (chunks cs sel) = Except.ok (ε := Err) (match P.chan with
      | none => []
      | some c => sel.flatMap fun i => c.filter fun r => decide (r.1 = i)) := by
    unfold chanPieces
    cases hpc : P.chan with
    | none => rfl
    | some c => simp only; rw [byLoc_pieces c sel cs hc (t4 c hpc)]
  unfold exportSelection
  simp only [c1, c2, c3, c4, Bool.false_eq_true, if_false]
  rw [byLabels_pieces P.one sel cs hc t1, byLabels_pieces P.hist sel hcs hh t2, hch, byLoc_pieces P.lens sel cs hc t3]
  rfl

/-- What an export that succeeds does to the mass tables. -/
theorem export_mass {α β γ : Type} (P : Pop α β γ) (nameOk : Bool) (old : Option (Store α β γ)) (overwrite append : Bool) (cs hcs : ℕ)
    (sel : List ℤ) (s : Store α β γ) (P' : Pop α β γ) (h : exportSelection P nameOk old overwrite append cs hcs sel = .ok (s, P')) :
    P'.mass = P.mass.map (fun r => (r.1, r.2.1, sel.length)) ∧
    s.mass = some (match (target old append).mass with
        | some t => groupSum (t ++ P.mass.map fun r => (r.1, r.2.1, sel.length))
        | none => P.mass.map fun r => (r.1, r.2.1, sel.length)) := by
  unfold exportSelection at h
  by_cases c1 : (!nameOk) = true
  · rw [if_pos c1] at h; exact absurd h (by simp)
  rw [if_neg c1] at h
  by_cases c2 : (append && overwrite) = true
  · rw [if_pos c2] at h; exact absurd h (by simp)
  rw [if_neg c2] at h
  by_cases c3 : (old.isSome && !overwrite && !append) = true
  · rw [if_pos c3] at h; exact absurd h (by simp)
  rw [if_neg c3] at h
  by_cases c4 : (!P.hasMet && decide (P.mass.length > 1)) = true
  · simp only [c4, if_true] at h; exact absurd h (by simp)
  simp only [c4, Bool.false_eq_true, if_false] at h
  cases hA : overPieces (byLabels P.one) (chunks cs sel) with
  | error e => rw [hA] at h; exact absurd h (by simp)
  | ok o =>
    cases hB : overPieces (byLabels P.hist) (chunks hcs sel) with
    | error e => rw [hA, hB] at h; exact absurd h (by simp)
    | ok b =>
      cases hC : chanPieces P (chunks cs sel) with
      | error e => rw [hA, hB, hC] at h; exact absurd h (by simp)
      | ok c =>
        cases hD : overPieces (byLoc P.lens) (chunks cs sel) with
        | error e => rw [hA, hB, hC, hD] at h; exact absurd h (by simp)
        | ok l =>
          rw [hA, hB, hC, hD] at h
          simp only [Except.ok.injEq, Prod.mk.injEq] at h
          obtain ⟨h1, h2⟩ := h
          rw [← h1, ← h2]
          exact ⟨rfl, rfl⟩

theorem relabel_perm {δ : Type} (start : ℤ) (sel : List ℤ) {a b : Rows δ} (h : a.Perm b) :
    (relabel start sel a).Perm (relabel start sel b) := h.map _

/-- C31 holds in part: exporting a selection without repetitions of binaries that are all there succeeds; there is one renumbering
that gives the `k`-th selected binary the number `start + k`, where `start` is above every number in the one-line table of
the target; each table gets exactly the rows of the selected binaries under this renumbering, after the rows that were
there. -/
theorem C31_export_partial {α β γ : Type} (P : Pop α β γ) (nameOk : Bool) (old : Option (Store α β γ)) (overwrite append : Bool)
    (cs hcs : ℕ) (sel : List ℤ) (h : Allowed P nameOk old overwrite append) (hc : cs ≠ 0) (hh : hcs ≠ 0) (ht : AllThere P sel)
    (hnd : sel.Nodup) :
    ∃ (s : Store α β γ) (P' : Pop α β γ) (start : ℤ) (new : ℤ → ℤ),
      exportSelection P nameOk old overwrite append cs hcs sel = .ok (s, P') ∧
      (∀ r ∈ (target old append).one, r.1 < start) ∧
      (∀ (k : ℕ) (hk : k < sel.length), new sel[k] = start + k) ∧
      s.one.Perm ((target old append).one ++
        (fillMet P (P.one.filter fun r => decide (r.1 ∈ sel))).map fun r => (new r.1, r.2)) ∧
      s.hist.Perm ((target old append).hist ++ (P.hist.filter fun r => decide (r.1 ∈ sel)).map fun r => (new r.1, r.2)) ∧
      s.lens = (target old append).lens ++ sel.flatMap (fun i => (P.lens.filter fun r => decide (r.1 = i)).map fun r => (new r.1, r.2)) ∧
      (∀ c, P.chan = some c →
        s.chan = (target old append).chan ++ sel.flatMap (fun i => (c.filter fun r => decide (r.1 = i)).map fun r => (new r.1, r.2))) := by
  refine ⟨_, _, firstNew (lastIndex (target old append)), newLabel (firstNew (lastIndex (target old append))) sel,
    export_eq P nameOk old overwrite append cs hcs sel h hc hh ht, lastIndex_ge _, fun k hk => newLabel_getElem _ sel hnd k hk, ?_, ?_, ?_, ?_⟩
  · refine List.Perm.append_left _ (relabel_perm _ _ ?_)
    have hp := flatMap_filter_perm P.one (chunks cs sel) (by rw [chunks_flatten cs hc _ sel le_rfl]; exact hnd)
    rw [chunks_flatten cs hc _ sel le_rfl] at hp
    unfold fillMet
    split_ifs
    · exact hp
    · exact hp.map _
  · refine List.Perm.append_left _ (relabel_perm _ _ ?_)
    have hp := flatMap_filter_perm P.hist (chunks hcs sel) (by rw [chunks_flatten hcs hh _ sel le_rfl]; exact hnd)
    rw [chunks_flatten hcs hh _ sel le_rfl] at hp
    exact hp
  · simp only [relabel, List.map_flatMap]
  · intro c hpc
    simp only [hpc, relabel, List.map_flatMap]

/-- C31: the calls that are refused. -/
theorem C31_refused {α β γ : Type} (P : Pop α β γ) (s : Store α β γ) (old : Option (Store α β γ)) (o a : Bool) (cs hcs : ℕ)
    (sel : List ℤ) :
    exportSelection P false old o a cs hcs sel = .error .value ∧
    exportSelection P true old true true cs hcs sel = .error .value ∧
    exportSelection P true (some s) false false cs hcs sel = .error .fileExists ∧
    (P.hasMet = false → 1 < P.mass.length → (a = false ∨ o = false) → (old = none ∨ o = true ∨ a = true) →
      exportSelection P true old o a cs hcs sel = .error .value) := by
  refine ⟨rfl, rfl, rfl, fun h1 h2 h3 h4 => ?_⟩
  unfold exportSelection
  have c4 : (!P.hasMet && decide (P.mass.length > 1)) = true := by simp [h1, h2]
  have c3 : (old.isSome && !o && !a) = false := by rcases h4 with h4 | h4 | h4 <;> simp [h4]
  have c2 : (a && o) = false := by rcases h3 with h3 | h3 <;> simp [h3]
  simp only [c2, c3, c4, Bool.not_true, Bool.false_eq_true, if_false, if_true]

theorem C31_overwrite {α β γ : Type} (P : Pop α β γ) (old : Option (Store α β γ)) (cs hcs : ℕ) (sel : List ℤ) :
    exportSelection P true old true false cs hcs sel = exportSelection P true none false false cs hcs sel := by
  unfold exportSelection
  simp

/-- C31: a selected binary that is in none of the tables makes the export fail. -/
theorem C31_unknown {α β γ : Type} (P : Pop α β γ) (old : Option (Store α β γ)) (a : Bool) (cs hcs : ℕ) (sel : List ℤ) (hcs0 : cs ≠ 0)
    (i : ℤ) (hi : i ∈ sel) (hl : i ∉ P.lens.map Prod.fst) (s : Store α β γ × Pop α β γ) :
    exportSelection P true old (!a) a cs hcs sel ≠ .ok s := by
  have key : ∀ L : List (List ℤ), i ∈ L.flatten → ∀ out, overPieces (byLoc P.lens) L ≠ .ok out := by
    intro L
    induction L with
    | nil => intro h; simp at h
    | cons c L ih =>
      intro h out
      rw [List.flatten_cons, List.mem_append] at h
      simp only [overPieces]
      rcases h with h | h
      · have : byLoc P.lens c = .error .key := by
          unfold byLoc
          refine if_neg ?_
          rw [List.all_eq_true]
          intro hall
          exact hl (by simpa using hall i h)
        rw [this]; simp
      · cases hb : byLoc P.lens c with
        | error e => simp
        | ok x =>
          cases ho : overPieces (byLoc P.lens) L with
          | error e => simp
          | ok y => exact absurd ho (ih h y)
  have hk := key (chunks cs sel) (by rw [chunks_flatten cs hcs0 _ sel le_rfl]; exact hi)
  intro h
  unfold exportSelection at h
  have c2 : (a && !a) = false := by cases a <;> rfl
  have c3 : (old.isSome && !(!a) && !a) = false := by cases a <;> cases old.isSome <;> rfl
  simp only [c2, c3, Bool.not_true, Bool.false_eq_true, if_false] at h
  by_cases c4 : (!P.hasMet && decide (P.mass.length > 1)) = true
  · rw [if_pos c4] at h; exact absurd h (by simp)
  · rw [if_neg c4] at h
    cases hA : overPieces (byLabels P.one) (chunks cs sel) with
    | error e => rw [hA] at h; exact absurd h (by simp)
    | ok o =>
      cases hB : overPieces (byLabels P.hist) (chunks hcs sel) with
      | error e => rw [hA, hB] at h; exact absurd h (by simp)
      | ok b =>
        cases hC : chanPieces P (chunks cs sel) with
        | error e => rw [hA, hB, hC] at h; exact absurd h (by simp)
        | ok c =>
          cases hD : overPieces (byLoc P.lens) (chunks cs sel) with
          | error e => rw [hA, hB, hC, hD] at h; exact absurd h (by simp)
          | ok l => exact hk _ hD

/-! ### Order -/

theorem filter_union_sorted {δ : Type} (a b : List ℤ) (hlt : ∀ x ∈ a, ∀ y ∈ b, x < y) : ∀ rows : Rows δ,
    rows.Pairwise (fun r s => r.1 ≤ s.1) →
    rows.filter (fun r => decide (r.1 ∈ a ++ b)) = rows.filter (fun r => decide (r.1 ∈ a)) ++ rows.filter (fun r => decide (r.1 ∈ b)) := by
  intro rows
  induction rows with
  | nil => intro _; rfl
  | cons r rows ih =>
    intro h
    obtain ⟨h1, h2⟩ := List.pairwise_cons.1 h
    by_cases ha : r.1 ∈ a
    · have hb : r.1 ∉ b := fun hb => lt_irrefl _ (hlt _ ha _ hb)
      rw [List.filter_cons, if_pos (by simp [ha]), List.filter_cons, if_pos (by simpa using ha), List.filter_cons,
        if_neg (by simpa using hb), ih h2]; rfl
    · by_cases hb : r.1 ∈ b
      · have hnil : (r :: rows).filter (fun r => decide (r.1 ∈ a)) = [] := by
          rw [List.filter_eq_nil_iff]
          intro s hs hsa
          simp only [decide_eq_true_eq] at hsa
          rcases List.mem_cons.1 hs with rfl | hs
          · exact ha hsa
          · have := hlt _ hsa _ hb
            have := h1 s hs
            omega
        have hnil' : rows.filter (fun r => decide (r.1 ∈ a)) = [] := by
          rw [List.filter_cons, if_neg (by simpa using ha)] at hnil; exact hnil
        rw [hnil, List.nil_append, List.filter_cons, if_pos (by simp [hb]), List.filter_cons, if_pos (by simpa using hb), ih h2, hnil',
          List.nil_append]
      · rw [List.filter_cons, if_neg (by simp [ha, hb]), List.filter_cons, if_neg (by simpa using ha), List.filter_cons,
          if_neg (by simpa using hb), ih h2]

theorem flatMap_filter_sorted {δ : Type} (rows : Rows δ) (hs : rows.Pairwise fun r s => r.1 ≤ s.1) : ∀ L : List (List ℤ),
    L.flatten.Pairwise (· < ·) →
    (L.flatMap fun c => rows.filter fun r => decide (r.1 ∈ c)) = rows.filter fun r => decide (r.1 ∈ L.flatten) := by
  intro L
  induction L with
  | nil => intro _; simp
  | cons c L ih =>
    intro h
    rw [List.flatten_cons] at h ⊢
    obtain ⟨-, h2, h3⟩ := List.pairwise_append.1 h
    rw [List.flatMap_cons, ih h2, filter_union_sorted c L.flatten h3 rows hs]

/-- C31: from a file sorted by label and with a selection in increasing order, the one-line table, the history and the lengths
all come out in the order of the new numbers, so that the exported tables match position by position. -/
theorem C31_sorted {α β γ : Type} (P : Pop α β γ) (cs hcs : ℕ) (sel : List ℤ) (hm : P.hasMet = true) (hc : cs ≠ 0) (hh : hcs ≠ 0)
    (ht : AllThere P sel) (hsel : sel.Pairwise (· < ·)) (h1 : P.one.Pairwise fun r s => r.1 ≤ s.1)
    (h2 : P.hist.Pairwise fun r s => r.1 ≤ s.1) :
    ∃ (s : Store α β γ) (P' : Pop α β γ), exportSelection P true none false false cs hcs sel = .ok (s, P') ∧
      s.one = (List.range sel.length).flatMap (fun k => (P.one.filter fun r => decide (r.1 = sel.getD k 0)).map fun r => ((k : ℤ), r.2)) ∧
      s.hist = (List.range sel.length).flatMap (fun k => (P.hist.filter fun r => decide (r.1 = sel.getD k 0)).map fun r => ((k : ℤ), r.2)) ∧
      s.lens = (List.range sel.length).flatMap (fun k => (P.lens.filter fun r => decide (r.1 = sel.getD k 0)).map fun r => ((k : ℤ), r.2)) := by
  have hnd : sel.Nodup := hsel.imp fun h => ne_of_lt h
  have hfl := fun n (hn : n ≠ 0) => chunks_flatten n hn sel.length sel le_rfl
  have hind : ∀ {δ : Type} (rows : Rows δ), relabel (firstNew (lastIndex (target (α := α) (β := β) (γ := γ) none false))) sel
      (sel.flatMap fun i => rows.filter fun r => decide (r.1 = i)) =
        (List.range sel.length).flatMap (fun k => (rows.filter fun r => decide (r.1 = sel.getD k 0)).map fun r => ((k : ℤ), r.2)) := by
    intro δ rows
    have hsr : sel = (List.range sel.length).map fun k => sel.getD k 0 := by
      refine List.ext_getElem (by simp) fun k hk _ => ?_
      rw [List.getElem_map, List.getElem_range, List.getD_eq_getElem _ _ hk]
    have hz : firstNew (lastIndex (target (α := α) (β := β) (γ := γ) none false)) = 0 := by
      simp [target, Store.empty, lastIndex, firstNew]
    rw [hz]
    unfold relabel
    rw [List.map_flatMap]
    conv_lhs => arg 2; rw [hsr]
    rw [List.flatMap_map]
    refine List.flatMap_congr fun k hk => ?_
    have hk' : k < sel.length := List.mem_range.1 hk
    refine List.map_congr_left fun r hr => ?_
    have hr1 : r.1 = sel.getD k 0 := by simpa using (List.mem_filter.1 hr).2
    rw [List.getD_eq_getElem _ _ hk'] at hr1
    rw [hr1, newLabel_getElem 0 sel hnd k hk', Int.zero_add]
  have hgr : ∀ {δ : Type} (rows : Rows δ), rows.Pairwise (fun r s => r.1 ≤ s.1) → rows.filter (fun r => decide (r.1 ∈ sel)) =
      sel.flatMap fun i => rows.filter fun r => decide (r.1 = i) := by
    intro δ rows hr
    have := sorted_groups sel (rows.filter fun r => decide (r.1 ∈ sel)) hsel (hr.filter _) fun r hr => by
      simpa using (List.mem_filter.1 hr).2
    rw [this]
    refine List.flatMap_congr fun i hi => ?_
    rw [List.filter_filter]
    refine List.filter_congr fun r _ => ?_
    by_cases h : r.1 = i
    · simp [h, hi]
    · simp [h]
  refine ⟨_, _, export_eq P true none false false cs hcs sel ⟨rfl, by simp, Or.inl rfl, Or.inl hm⟩ hc hh ht, ?_, ?_, ?_⟩
  · simp only [fillMet, hm, if_true]
    rw [flatMap_filter_sorted P.one h1 _ (by rw [hfl cs hc]; exact hsel), hfl cs hc, hgr P.one h1, hind]
    rfl
  · simp only
    rw [flatMap_filter_sorted P.hist h2 _ (by rw [hfl hcs hh]; exact hsel), hfl hcs hh, hgr P.hist h2, hind]
    rfl
  · simp only
    rw [hind]
    rfl

/-! ### Violations -/

/-- A population of binaries 2 (one row) and 5 (two rows). -/
def twoFive : Pop Char Char Char :=
  ⟨[(2, (some 1, 'x')), (5, (some 1, 'y'))], [(2, 'a'), (5, 'b'), (5, 'c')], none, [(2, 1), (5, 2)], [(1, 100, 2)], true⟩

/-- C31 is false for selections not in increasing order: the lengths are written in the order of the selection, the other tables in
file order; read position by position the exported file gives binary 5 (now 0) the history of binary 2 and the reverse. -/
theorem C31_unordered_violated :
    ∃ s P', exportSelection twoFive true none false false 10 10 [5, 2] = .ok (s, P') ∧
      s.hist = [(1, 'a'), (0, 'b'), (0, 'c')] ∧ s.one.map Prod.fst = [1, 0] ∧ s.lens = [(0, 2), (1, 1)] ∧
      pieces 1 (s.lens.map Prod.snd) s.hist (s.one.map Prod.fst) =
        [([(1, 'a'), (0, 'b')], [1]), ([(0, 'c')], [0])] := by
  have h1 : chunks 10 [(5 : ℤ), 2] = [[5, 2]] := chunks_single _ _ (by simp) (by simp)
  refine ⟨_, _, by unfold exportSelection; rw [h1]; rfl, rfl, rfl, rfl, ?_⟩
  have h2 : chunks 1 [2, 1] = [[2], [1]] := by simp [chunks]
  show batches 1 _ _ 0 0 (chunks 1 [2, 1]) = _
  rw [h2]
  rfl

/-- C31 is false for selections with repetitions: there are fewer rows than numbers, the lengths have the number twice. -/
theorem C31_repeated_violated :
    ∃ s P', exportSelection twoFive true none false false 10 10 [2, 2] = .ok (s, P') ∧
      s.one.map Prod.fst = [1] ∧ s.lens = [(1, 1), (1, 1)] ∧ s.mass = some [(1, 100, 2)] := by
  have h1 : chunks 10 [(2 : ℤ), 2] = [[2, 2]] := chunks_single _ _ (by simp) (by simp)
  exact ⟨_, _, by unfold exportSelection; rw [h1]; rfl, rfl, rfl, rfl⟩

/-- C31 is false about the source: its mass table has the size of the selection as number of systems afterwards, for every
metallicity. -/
theorem C31_source_changed_violated {α β γ : Type} (P : Pop α β γ) (nameOk : Bool) (old : Option (Store α β γ)) (overwrite append : Bool)
    (cs hcs : ℕ) (sel : List ℤ) (s : Store α β γ) (P' : Pop α β γ)
    (h : exportSelection P nameOk old overwrite append cs hcs sel = .ok (s, P')) :
    P'.mass = P.mass.map (fun r => (r.1, r.2.1, sel.length)) ∧ ((∃ r ∈ P.mass, r.2.2 ≠ sel.length) → P' ≠ P) := by
  have hm := (export_mass P nameOk old overwrite append cs hcs sel s P' h).1
  refine ⟨hm, ?_⟩
  rintro ⟨r, hr, hne⟩ he
  rw [he] at hm
  have : r ∈ P.mass.map (fun r => (r.1, r.2.1, sel.length)) := hm ▸ hr
  obtain ⟨q, -, hq⟩ := List.mem_map.1 this
  exact hne (by rw [← hq])

/-- Simulated mass and number of systems of a metallicity. -/
def massOf (z : ℚ) (t : List MassRow) : ℚ := ((t.filter fun r => decide (r.1 = z)).map fun r => r.2.1).sum
def countOf (z : ℚ) (t : List MassRow) : ℕ := ((t.filter fun r => decide (r.1 = z)).map fun r => r.2.2).sum

theorem groupSum_spec (t : List MassRow) (z : ℚ) : massOf z (groupSum t) = massOf z t ∧ countOf z (groupSum t) = countOf z t := by
  have hperm := List.perm_insertionSort (· ≤ ·) ((t.map Prod.fst).dedup)
  have hnd : (((t.map Prod.fst).dedup).insertionSort (· ≤ ·)).Nodup := hperm.nodup_iff.2 (List.nodup_dedup _)
  have hmem : ∀ i, i ∈ ((t.map Prod.fst).dedup).insertionSort (· ≤ ·) ↔ ∃ r ∈ t, r.1 = i := by
    intro i; rw [hperm.mem_iff, List.mem_dedup, List.mem_map]
  have key : (groupSum t).filter (fun r => decide (r.1 = z)) = if (∃ r ∈ t, r.1 = z) then [(z, massOf z t, countOf z t)] else [] := by
    unfold groupSum
    rw [List.filter_map]
    have : ((fun r : MassRow => decide (r.1 = z)) ∘ fun z => (z, ((t.filter fun r => decide (r.1 = z)).map fun r => r.2.1).sum,
        ((t.filter fun r => decide (r.1 = z)).map fun r => r.2.2).sum)) = fun i => decide (i = z) := rfl
    rw [this]
    by_cases h : ∃ r ∈ t, r.1 = z
    · rw [if_pos h]
      have hz := (hmem z).2 h
      have : (((t.map Prod.fst).dedup).insertionSort (· ≤ ·)).filter (fun i => decide (i = z)) = [z] := by
        have h1 := List.filter_beq z (l := ((t.map Prod.fst).dedup).insertionSort (· ≤ ·))
        rw [List.count_eq_one_of_mem hnd hz] at h1
        have h2 : (fun i => decide (i = z)) = (fun i : ℚ => i == z) := by funext i; rfl
        rw [h2, h1]; rfl
      rw [this]; rfl
    · rw [if_neg h]
      have : (((t.map Prod.fst).dedup).insertionSort (· ≤ ·)).filter (fun i => decide (i = z)) = [] := by
        rw [List.filter_eq_nil_iff]
        intro i hi hiz
        simp only [decide_eq_true_eq] at hiz
        exact h (hiz ▸ (hmem i).1 hi)
      rw [this]; rfl
  have hnone : (¬ ∃ r ∈ t, r.1 = z) → t.filter (fun r => decide (r.1 = z)) = [] := by
    intro h
    rw [List.filter_eq_nil_iff]
    intro r hr hrz
    exact h ⟨r, hr, by simpa using hrz⟩
  constructor
  · unfold massOf
    rw [key]
    split_ifs with h
    · simp [massOf]
    · rw [hnone h]
  · unfold countOf
    rw [key]
    split_ifs with h
    · simp [countOf]
    · rw [hnone h]

theorem massOf_append (z : ℚ) (a b : List MassRow) : massOf z (a ++ b) = massOf z a + massOf z b := by
  simp [massOf]

theorem massOf_mine (z : ℚ) (n : ℕ) (t : List MassRow) : massOf z (t.map fun r => (r.1, r.2.1, n)) = massOf z t := by
  unfold massOf
  rw [List.filter_map, List.map_map]
  rfl

/-- C31: the simulated mass of a metallicity in the target is what was there plus the whole simulated mass of the population.
Hence it is not consistent to export from a population in two steps: the mass it stands for is counted twice. -/
theorem C31_mass_counted_again_violated {α β γ : Type} (P : Pop α β γ) (nameOk : Bool) (old : Option (Store α β γ))
    (overwrite append : Bool) (cs hcs : ℕ) (sel : List ℤ) (s : Store α β γ) (P' : Pop α β γ)
    (h : exportSelection P nameOk old overwrite append cs hcs sel = .ok (s, P')) (z : ℚ) :
    ∃ t, s.mass = some t ∧ massOf z t = massOf z ((target old append).mass.getD []) + massOf z P.mass ∧
    ∀ (sel' : List ℤ) (s2 : Store α β γ) (P2 : Pop α β γ), old = none →
      exportSelection P' nameOk (some s) false true cs hcs sel' = .ok (s2, P2) →
      ∃ t2, s2.mass = some t2 ∧ massOf z t2 = 2 * massOf z P.mass := by
  have gen : ∀ (P : Pop α β γ) (old : Option (Store α β γ)) (overwrite append : Bool) (sel : List ℤ) (s : Store α β γ) (P' : Pop α β γ),
      exportSelection P nameOk old overwrite append cs hcs sel = .ok (s, P') →
      ∃ t, s.mass = some t ∧ massOf z t = massOf z ((target old append).mass.getD []) + massOf z P.mass := by
    intro P old overwrite append sel s P' h
    have hm := (export_mass P nameOk old overwrite append cs hcs sel s P' h).2
    refine ⟨_, hm, ?_⟩
    cases (target old append).mass with
    | none => simp only [Option.getD_none]; rw [massOf_mine]; simp [massOf]
    | some t => simp only [Option.getD_some]; rw [(groupSum_spec _ z).1, massOf_append, massOf_mine]
  obtain ⟨t, ht, hz⟩ := gen P old overwrite append sel s P' h
  refine ⟨t, ht, hz, fun sel' s2 P2 hold h2 => ?_⟩
  obtain ⟨t2, ht2, hz2⟩ := gen P' (some s) false true sel' s2 P2 h2
  refine ⟨t2, ht2, ?_⟩
  have hP' := (C31_source_changed_violated P nameOk old overwrite append cs hcs sel s P' h).1
  have e1 : (target (some s) true).mass.getD [] = t := by simp [target, ht]
  rw [hz2, e1, hz, hP', massOf_mine, hold]
  have e2 : (target (α := α) (β := β) (γ := γ) none append).mass = none := by
    cases append <;> rfl
  rw [e2]
  simp [massOf]
  ring

/-- C31 is false about numbers of systems: with several metallicities each is credited with the whole selection. -/
theorem C31_count_violated :
    ∃ (P : Pop Char Char Char) (s : _) (P' : _), exportSelection P true none false false 10 10 [2, 5] = .ok (s, P') ∧
      s.mass = some [(1, 100, 2), (1 / 10, 50, 2)] ∧ s.one.map Prod.fst = [0, 1] := by
  have h1 : chunks 10 [(2 : ℤ), 5] = [[2, 5]] := chunks_single _ _ (by simp) (by simp)
  exact ⟨{ twoFive with mass := [(1, 100, 1), (1 / 10, 50, 1)] }, _, _, by unfold exportSelection; rw [h1]; rfl, rfl, rfl⟩

/-- C31 is false about metallicities: a missing metallicity column is filled with the absolute metallicity, while the mass table of
the same file is indexed in solar units, so that no exported binary has a metallicity of the mass table unless it is zero. -/
theorem C31_metallicity_units_violated {α β γ : Type} (P : Pop α β γ) (z m : ℚ) (n : ℕ) (hP : P.mass = [(z, m, n)]) (hm : P.hasMet = false)
    (hz : z ≠ 0) (cs hcs : ℕ) (hc : cs ≠ 0) (hh : hcs ≠ 0) (sel : List ℤ) (ht : AllThere P sel) :
    ∃ s P', exportSelection P true none false false cs hcs sel = .ok (s, P') ∧
      (∀ r ∈ s.one, r.2.1 = some (z * Zsun)) ∧ s.mass = some [(z, m, sel.length)] ∧ z * Zsun ≠ z := by
  refine ⟨_, _, export_eq P true none false false cs hcs sel ⟨rfl, by simp, Or.inl rfl, Or.inr (by simp [hP])⟩ hc hh ht, ?_, ?_, ?_⟩
  · intro r hr
    simp only [target, Store.empty, fillMet, hm, relabel, Bool.false_eq_true, if_false, List.nil_append, List.map_map, List.mem_map] at hr
    obtain ⟨q, -, rfl⟩ := hr
    simp [hP]
  · simp [target, Store.empty, hP]
  · intro h
    have : Zsun = 1 := mul_left_cancel₀ hz (by rw [h, mul_one])
    exact absurd this (by unfold Zsun; norm_num)

/-- The hypotheses of the positive theorems are met by the population above. -/
example : AllThere twoFive [2, 5] ∧ Allowed twoFive true none false false ∧ twoFive.hist.Pairwise (fun r s => r.1 ≤ s.1) := by
  refine ⟨⟨?_, ?_, ?_, fun c h => by simp [twoFive] at h⟩, ⟨rfl, by simp, Or.inl rfl, Or.inl rfl⟩, by simp [twoFive]⟩ <;>
    intro i hi <;> simp only [List.mem_cons, List.not_mem_nil, or_false] at hi <;> rcases hi with rfl | rfl <;> simp [twoFive]

end Verif.Export
