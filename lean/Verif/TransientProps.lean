import Verif.Chars
import Verif.Transient
import Verif.GridJoinProps
import Mathlib.Data.List.Nodup
import Mathlib.Tactic.Linarith
/-!
C86: tables of transients hold, for every binary, values of its own rows around its own supernova.
-/
namespace Verif.Transient

open Verif.Frame (Name before)
open Verif.GridJoin (mask)

variable {K : Type}

/-! ### Specification: the row in which a star becomes a black hole, and the row before -/

/-- A step from one row to the next in which the star selected becomes a black hole by a supernova. -/
def Marked (w : Bool) (x y : Row K) : Prop := isBH w x = false ∧ isBH w y = true ∧ y.step = "step_SN"

instance (w : Bool) (x y : Row K) : Decidable (Marked w x y) := by unfold Marked; infer_instance

/-- The star becomes a black hole once, from row `a` to row `b`. -/
def Born (w : Bool) (rows : List (Row K)) (a b : Row K) : Prop :=
  ∃ pre post, rows = pre ++ a :: b :: post ∧ (∀ r ∈ pre, isBH w r = false) ∧ Marked w a b ∧ List.IsChain (fun x y => ¬ Marked w x y) (b :: post)

/-- The step to a row, if the star becomes a black hole in it. -/
def link (w : Bool) : Option (Row K) → Row K → List (Row K × Row K)
  | some p, r => if Marked w p r then [(p, r)] else []
  | none, _ => []

/-- All the steps in which the star becomes a black hole. -/
def births (w : Bool) : Option (Row K) → List (Row K) → List (Row K × Row K)
  | _, [] => []
  | prev, r :: rs => link w prev r ++ births w (some r) rs

theorem births_append (w : Bool) : ∀ (l : List (Row K)) (p : Option (Row K)) (l' : List (Row K)), births w p (l ++ l') =
    births w p l ++ births w (match l.getLast? with | some x => some x | none => p) l'
  | [], p, l' => by simp [births]
  | r :: rs, p, l' => by
    rw [List.cons_append, births, births, births_append w rs (some r) l', List.append_assoc]
    congr 2
    cases rs with
    | nil => simp
    | cons a rs =>
      obtain ⟨x, hx⟩ : ∃ x, (a :: rs).getLast? = some x := ⟨_, List.getLast?_eq_some_getLast (by simp)⟩
      rw [List.getLast?_cons_cons, hx]

theorem births_none (w : Bool) : ∀ (l : List (Row K)) (p : Option (Row K)), (∀ r ∈ l, isBH w r = false) → births w p l = []
  | [], _, _ => rfl
  | r :: rs, p, h => by
    rw [births, births_none w rs (some r) fun x hx => h x (by simp [hx])]
    cases p with
    | none => rfl
    | some q =>
      have : ¬ Marked w q r := fun hm => by
        have := h r (by simp)
        rw [hm.2.1] at this
        cases this
      simp [link, this]

theorem births_chain (w : Bool) : ∀ (l : List (Row K)) (b : Row K), List.IsChain (fun x y => ¬ Marked w x y) (b :: l) → births w (some b) l = []
  | [], _, _ => rfl
  | r :: rs, b, h => by
    rw [List.isChain_cons_cons] at h
    rw [births, births_chain w rs r h.2]
    simp [link, h.1]

theorem births_born (w : Bool) (rows : List (Row K)) (a b : Row K) (p : Option (Row K)) (h : Born w rows a b) : births w p rows = [(a, b)] := by
  obtain ⟨pre, post, rfl, h1, h2, h3⟩ := h
  rw [births_append, births_none w pre p h1, List.nil_append, births, births, births_chain w post b h3]
  generalize (match pre.getLast? with | some x => some x | none => p) = q
  have ha : ∀ x, ¬ Marked w x a := fun x hm => by
    have := h2.1
    rw [hm.2.1] at this
    cases this
  cases q with
  | none => simp [link, h2]
  | some x => simp [link, ha x, h2]

theorem births_flatMap (w : Bool) (f : ℕ → List (Row K)) (g : ℕ → Row K × Row K) : ∀ (is : List ℕ) (p : Option (Row K)),
    (∀ i ∈ is, Born w (f i) (g i).1 (g i).2) → births w p (is.flatMap f) = is.map g
  | [], _, _ => rfl
  | i :: is, p, h => by
    rw [List.flatMap_cons, births_append, births_born w _ _ _ p (h i (by simp)), births_flatMap w f g is _ fun j hj => h j (by simp [hj])]
    rfl

/-- The masks of the code select the rows of these steps. -/
theorem masks (w : Bool) (rows : List (Row K)) : mask (sMask w rows) rows = (births w none rows).map (·.2) ∧
    mask (shiftBack (sMask w rows)) rows = (births w none rows).map (·.1) := by
  have hs : ∀ (rs : List (Row K)) (r : Row K) (b : Bool),
      List.zipWith (fun a b => a && b) (List.zipWith (fun a b => a && b) ((r :: rs).map (isBH w)) ((b :: (r :: rs).map fun r => !isBH w r).take (r :: rs).length))
        ((r :: rs).map fun r => r.step == "step_SN") =
      (isBH w r && b && (r.step == "step_SN")) :: List.zipWith (fun a b => a && b)
        (List.zipWith (fun a b => a && b) (rs.map (isBH w)) (((!isBH w r) :: rs.map fun r => !isBH w r).take rs.length)) (rs.map fun r => r.step == "step_SN") := by
    intro rs r b
    simp
  have hpost : ∀ (rs : List (Row K)) (r : Row K), mask (List.zipWith (fun a b => a && b)
        (List.zipWith (fun a b => a && b) (rs.map (isBH w)) (((!isBH w r) :: rs.map fun r => !isBH w r).take rs.length)) (rs.map fun r => r.step == "step_SN")) rs =
      (births w (some r) rs).map (·.2) ∧
      mask (List.zipWith (fun a b => a && b)
        (List.zipWith (fun a b => a && b) (rs.map (isBH w)) (((!isBH w r) :: rs.map fun r => !isBH w r).take rs.length)) (rs.map fun r => r.step == "step_SN") ++ [false])
          (r :: rs) = (births w (some r) rs).map (·.1) := by
    intro rs
    induction rs with
    | nil => intro r; simp [mask, births]
    | cons a rs ih =>
      intro r
      obtain ⟨i1, i2⟩ := ih a
      rw [hs]
      have hd : (isBH w a && !isBH w r && (a.step == "step_SN")) = decide (Marked w r a) := by
        rw [Bool.eq_iff_iff, decide_eq_true_iff]
        unfold Marked
        simp only [Bool.and_eq_true, Bool.not_eq_true', beq_iff_eq]
        constructor
        · rintro ⟨⟨x, y⟩, z⟩; exact ⟨y, x, z⟩
        · rintro ⟨y, x, z⟩; exact ⟨⟨x, y⟩, z⟩
      rw [hd, births]
      unfold link
      dsimp only
      constructor
      · have : ∀ (c : Bool) (m : List Bool), mask (c :: m) (a :: rs) = (if c then [a] else []) ++ mask m rs := by
          intro c m
          cases c <;> simp [mask]
        rw [this, i1]
        by_cases hm : Marked w r a <;> simp [hm]
      · have : ∀ (c : Bool) (m : List Bool), mask (c :: m) (r :: a :: rs) = (if c then [r] else []) ++ mask m (a :: rs) := by
          intro c m
          cases c <;> simp [mask]
        rw [List.cons_append, this, i2]
        by_cases hm : Marked w r a <;> simp [hm]
  cases rows with
  | nil => simp [mask, births]
  | cons r rs =>
    obtain ⟨h1, h2⟩ := hpost rs r
    unfold sMask shift
    rw [List.length_map, hs, births]
    unfold link
    simp only [Bool.and_false, Bool.false_and, List.nil_append]
    constructor
    · have : ∀ m : List Bool, mask (false :: m) (r :: rs) = mask m rs := by intro m; simp [mask]
      rw [this]
      exact h1
    · unfold shiftBack
      rw [List.cons_append, List.drop_succ_cons, List.drop_zero]
      exact h2

theorem loc_ok {R : Type} {num : R → ℕ} {rows : List R} {is : List ℕ} {sel : List R} (h : loc num rows is = .ok sel) :
    sel = (is.flatMap fun i => rows.filter fun r => num r == i) ∧ ∀ i ∈ is, ∃ r ∈ rows, num r = i := by
  unfold loc at h
  by_cases ha : (is.any fun i => (rows.filter fun r => num r == i).isEmpty) = true
  · rw [if_pos ha] at h; simp at h
  · rw [if_neg ha] at h
    simp only [Except.ok.injEq] at h
    refine ⟨h.symm, fun i hi => ?_⟩
    by_contra hn
    refine ha (List.any_eq_true.2 ⟨i, hi, ?_⟩)
    rw [List.isEmpty_iff, List.filter_eq_nil_iff]
    intro r hr he
    exact hn ⟨r, hr, by simpa using he⟩

/-- Numbers of the binaries whose star radiated some of a disk. -/
def chosen [LT K] [DecidableLT K] [Zero K] (w : Bool) (one : List (One K)) : List ℕ :=
  (one.filter fun o => match (if w then o.disk1 else o.disk2) with
    | some x => decide (0 < x)
    | none => false).map (·.idx)

/-- **C86** Exactly the binaries with a radiated disk mass above zero are selected. -/
theorem C86_chosen [LT K] [DecidableLT K] [Zero K] (w : Bool) (one : List (One K)) (i : ℕ) :
    i ∈ chosen w one ↔ ∃ o ∈ one, o.idx = i ∧ ∃ x, (if w then o.disk1 else o.disk2) = some x ∧ 0 < x := by
  unfold chosen
  simp only [List.mem_map, List.mem_filter]
  constructor
  · rintro ⟨o, ⟨h1, h2⟩, h3⟩
    refine ⟨o, h1, h3, ?_⟩
    cases hd : (if w then o.disk1 else o.disk2) with
    | none => rw [hd] at h2; simp at h2
    | some x => rw [hd] at h2; exact ⟨x, rfl, by simpa using h2⟩
  · rintro ⟨o, h1, h3, x, h4, h5⟩
    exact ⟨o, ⟨h1, by rw [h4]; simpa using h5⟩, h3⟩

/-- The rows of a binary. -/
def rowsOf (hist : List (Row K)) (i : ℕ) : List (Row K) := hist.filter fun r => r.idx == i

def nameOf (w : Bool) : Name := if w then (chars! "S1") else (chars! "S2")

/-- What a selection without an error went through. -/
theorem grb_ok [LT K] [DecidableLT K] [Zero K] {myr : K → K} {w : Bool} {hist : List (Row K)} {one : List (One K)} {names : List Name}
    {chan : Option (List (ℕ × Name))} {T : Table K} (h : grb myr (nameOf w) hist one names chan = .ok T) (hne : chosen w one ≠ []) :
    T.index = chosen w one ∧ (births w none ((chosen w one).flatMap (rowsOf hist))).length = (chosen w one).length ∧
    ∃ os, loc One.idx one (chosen w one) = .ok os ∧ os.length = (chosen w one).length ∧
    T.cols = ((prePost w).flatMap fun c => [(c ++ (chars! "_preSN"), ((births w none ((chosen w one).flatMap (rowsOf hist))).map (·.1)).map fun r => r.col c),
        (c ++ (chars! "_postSN"), ((births w none ((chosen w one).flatMap (rowsOf hist))).map (·.2)).map fun r => r.col c)]) ++
      [(other w, ((births w none ((chosen w one).flatMap (rowsOf hist))).map (·.2)).map fun r => r.col (other w))] ++
      names.map (fun c => (c, os.map fun o => o.col c)) ++
      [(if w then (chars! "S1_m_disk_radiated") else (chars! "S2_m_disk_radiated"), os.map fun o => if w then o.disk1 else o.disk2),
        ((chars! "time"), ((births w none ((chosen w one).flatMap (rowsOf hist))).map (·.2)).map fun r => some (myr r.time))] ∧
    (∀ ch, chan = some ch → T.channel = some ((chosen w one).map fun i => (ch.find? fun p => p.1 == i).map fun p =>
        before (if w then (chars! "_CC1") else (chars! "_CC2")) p.2 ++ (if w then (chars! "_CC1") else (chars! "_CC2"))) ∧
      ∀ i ∈ chosen w one, ∃ p ∈ ch, p.1 = i) ∧ (chan = none → T.channel = none) := by
  have hw : decide (nameOf w = (chars! "S1")) = w := by cases w <;> decide +kernel
  unfold grb at h
  rw [if_neg (by cases w <;> decide +kernel)] at h
  dsimp only at h
  rw [hw] at h
  change (if chosen w one = [] then _ else _) = _ at h
  rw [if_neg hne] at h
  change (match loc Row.idx hist (chosen w one) with | .error e => _ | .ok sel => _) = _ at h
  cases hl : loc Row.idx hist (chosen w one) with
  | error e => rw [hl] at h; simp at h
  | ok sel =>
    rw [hl] at h
    dsimp only at h
    obtain ⟨hsel, -⟩ := loc_ok hl
    change sel = (chosen w one).flatMap (rowsOf hist) at hsel
    obtain ⟨m1, m2⟩ := masks w sel
    rw [m1, m2] at h
    subst hsel
    by_cases hl2 : ((births w none ((chosen w one).flatMap (rowsOf hist))).map (·.1)).length ≠ (chosen w one).length ∨
        ((births w none ((chosen w one).flatMap (rowsOf hist))).map (·.2)).length ≠ (chosen w one).length
    · exact absurd h (by
        intro h
        have := (if_pos hl2).symm.trans h
        cases this)
    have h := (if_neg hl2).symm.trans h
    have hlen : (births w none ((chosen w one).flatMap (rowsOf hist))).length = (chosen w one).length := by
      simp only [not_or, not_not] at hl2
      rw [← hl2.1, List.length_map]
    change (match loc One.idx one (chosen w one) with | .error e => _ | .ok os => _) = _ at h
    cases ho : loc One.idx one (chosen w one) with
    | error e => rw [ho] at h; simp at h
    | ok os =>
      rw [ho] at h
      dsimp only at h
      by_cases hol : os.length ≠ (chosen w one).length
      · exact absurd h (by
          intro h
          change (if os.length ≠ (chosen w one).length then _ else _) = _ at h
          rw [if_pos hol] at h
          cases h)
      · change (if os.length ≠ (chosen w one).length then _ else _) = _ at h
        rw [if_neg hol] at h
        rw [not_not] at hol
        cases chan with
        | none =>
          simp only [Except.ok.injEq] at h
          subst h
          exact ⟨rfl, hlen, os, rfl, hol, rfl, (fun ch hc => by cases hc), fun _ => rfl⟩
        | some ch =>
          dsimp only at h
          change (if ((chosen w one).any fun i => (ch.find? fun p => p.1 == i).isNone) = true then _ else _) = _ at h
          by_cases hc : ((chosen w one).any fun i => (ch.find? fun p => p.1 == i).isNone) = true
          · rw [if_pos hc] at h; cases h
          · rw [if_neg hc] at h
            simp only [Except.ok.injEq] at h
            subst h
            refine ⟨rfl, hlen, os, rfl, hol, rfl, fun ch' hch => ?_, fun hn => by cases hn⟩
            cases hch
            refine ⟨rfl, fun i hi => ?_⟩
            by_contra hn
            refine hc (List.any_eq_true.2 ⟨i, hi, ?_⟩)
            rw [Option.isNone_iff_eq_none, List.find?_eq_none]
            intro p hp he
            exact hn ⟨p, hp, by simpa using he⟩

/-- **C86** If each binary selected becomes a black hole once, from row `(g i).1` to row `(g i).2`, the table has one row for each, in the order of
the one-line table, and its columns hold the values of these rows: before, after, other star, time. -/
theorem C86_own_supernova_partial [LT K] [DecidableLT K] [Zero K] {myr : K → K} {w : Bool} {hist : List (Row K)} {one : List (One K)} {names : List Name}
    {chan : Option (List (ℕ × Name))} {T : Table K} (g : ℕ → Row K × Row K) (hg : ∀ i ∈ chosen w one, Born w (rowsOf hist i) (g i).1 (g i).2)
    (hne : chosen w one ≠ []) (h : grb myr (nameOf w) hist one names chan = .ok T) :
    T.index = chosen w one ∧
    (∀ c ∈ prePost w, (c ++ (chars! "_preSN"), (chosen w one).map fun i => (g i).1.col c) ∈ T.cols ∧
      (c ++ (chars! "_postSN"), (chosen w one).map fun i => (g i).2.col c) ∈ T.cols) ∧
    (other w, (chosen w one).map fun i => (g i).2.col (other w)) ∈ T.cols ∧
    ((chars! "time"), (chosen w one).map fun i => some (myr (g i).2.time)) ∈ T.cols := by
  obtain ⟨h1, h2, os, h3, h4, h5, -⟩ := grb_ok h hne
  have hb := births_flatMap w (rowsOf hist) g (chosen w one) none hg
  rw [hb] at h5
  simp only [List.map_map] at h5
  rw [h5]
  refine ⟨h1, fun c hc => ⟨?_, ?_⟩, ?_, ?_⟩
  · refine List.mem_append_left _ (List.mem_append_left _ (List.mem_append_left _ (List.mem_flatMap.2 ⟨c, hc, ?_⟩)))
    exact List.mem_cons_self
  · refine List.mem_append_left _ (List.mem_append_left _ (List.mem_append_left _ (List.mem_flatMap.2 ⟨c, hc, ?_⟩)))
    exact List.mem_cons_of_mem _ List.mem_cons_self
  · exact List.mem_append_left _ (List.mem_append_left _ (List.mem_append_right _ List.mem_cons_self))
  · exact List.mem_append_right _ (List.mem_cons_of_mem _ List.mem_cons_self)

/-- **C86** The columns of the one-line table are those of the same binaries, if no binary is there twice. -/
theorem C86_own_line [LT K] [DecidableLT K] [Zero K] {myr : K → K} {w : Bool} {hist : List (Row K)} {one : List (One K)} {names : List Name}
    {chan : Option (List (ℕ × Name))} {T : Table K} (hn : (one.map (·.idx)).Nodup) (hne : chosen w one ≠ []) (h : grb myr (nameOf w) hist one names chan = .ok T) :
    ∃ os, List.Forall₂ (fun i o => o ∈ one ∧ o.idx = i) T.index os ∧ ∀ c ∈ names, (c, os.map fun o => o.col c) ∈ T.cols := by
  obtain ⟨h1, h2, os, h3, h4, h5, -⟩ := grb_ok h hne
  obtain ⟨e1, e2⟩ := loc_ok h3
  refine ⟨os, ?_, fun c hc => ?_⟩
  · rw [h1, e1]
    have : ∀ is : List ℕ, (∀ i ∈ is, ∃ r ∈ one, r.idx = i) → List.Forall₂ (fun i o => o ∈ one ∧ o.idx = i) is (is.flatMap fun i => one.filter fun r => r.idx == i) := by
      intro is
      induction is with
      | nil => intro _; exact .nil
      | cons i is ih =>
        intro hi
        obtain ⟨r, hr, hri⟩ := hi i (by simp)
        have hone : (one.filter fun r => r.idx == i) = [r] := by
          clear h h1 h2 h3 h4 h5 e1 e2 hi ih hne
          induction one with
          | nil => simp at hr
          | cons a one ih2 =>
            rw [List.map_cons, List.nodup_cons] at hn
            rcases List.mem_cons.1 hr with rfl | hr'
            · rw [List.filter_cons_of_pos (by simp [hri])]
              congr 1
              rw [List.filter_eq_nil_iff]
              intro b hb hbe
              exact hn.1 (List.mem_map.2 ⟨b, hb, by rw [hri]; simpa using hbe⟩)
            · rw [List.filter_cons_of_neg]
              · exact ih2 hn.2 hr'
              · intro hae
                exact hn.1 (List.mem_map.2 ⟨r, hr', by rw [hri]; simpa using (by simpa using hae : a.idx = i).symm⟩)
        rw [List.flatMap_cons, hone]
        exact .cons ⟨hr, hri⟩ (ih fun j hj => hi j (by simp [hj]))
    exact this _ e2
  · rw [h5]
    exact List.mem_append_left _ (List.mem_append_right _ (List.mem_map.2 ⟨c, hc, rfl⟩))

/-- **C86** The channel is that of the binary up to its collapse. -/
theorem C86_channel [LT K] [DecidableLT K] [Zero K] {myr : K → K} {w : Bool} {hist : List (Row K)} {one : List (One K)} {names : List Name}
    {ch : List (ℕ × Name)} {T : Table K} (hne : chosen w one ≠ []) (hn : (ch.map (·.1)).Nodup) (h : grb myr (nameOf w) hist one names (some ch) = .ok T) :
    ∃ cs, T.channel = some cs ∧ List.Forall₂ (fun i c => ∃ x, (i, x) ∈ ch ∧ c = some (before (if w then (chars! "_CC1") else (chars! "_CC2")) x ++
      (if w then (chars! "_CC1") else (chars! "_CC2")))) T.index cs := by
  obtain ⟨h1, h2, os, h3, h4, h5, h6, -⟩ := grb_ok h hne
  obtain ⟨c1, c2⟩ := h6 ch rfl
  refine ⟨_, c1, ?_⟩
  rw [h1]
  have : ∀ is : List ℕ, (∀ i ∈ is, ∃ p ∈ ch, p.1 = i) → List.Forall₂ (fun i c => ∃ x, (i, x) ∈ ch ∧ c = some (before (if w then (chars! "_CC1") else (chars! "_CC2")) x ++
      (if w then (chars! "_CC1") else (chars! "_CC2")))) is (is.map fun i => (ch.find? fun p => p.1 == i).map fun p =>
        before (if w then (chars! "_CC1") else (chars! "_CC2")) p.2 ++ (if w then (chars! "_CC1") else (chars! "_CC2"))) := by
    intro is
    induction is with
    | nil => intro _; exact .nil
    | cons i is ih =>
      intro hi
      refine .cons ?_ (ih fun j hj => hi j (by simp [hj]))
      obtain ⟨p, hp, hpi⟩ := hi i (by simp)
      cases hf : ch.find? (fun p => p.1 == i) with
      | none =>
        rw [List.find?_eq_none] at hf
        exact absurd (by simpa using hpi) (hf p hp)
      | some q =>
        have hq := List.mem_of_find?_eq_some hf
        have hqi := List.find?_some hf
        simp only [beq_iff_eq] at hqi
        refine ⟨q.2, by rw [← hqi]; exact hq, ?_⟩
        dsimp only
        rw [hf]
        rfl
  exact this _ c2

/-- **C86** A star which is neither the first nor the second is refused; nothing selected gives an empty table; a binary without history, or a
number of supernovae which is not the number of binaries, is refused. -/
theorem C86_refused [LT K] [DecidableLT K] [Zero K] (myr : K → K) (which : Name) (w : Bool) (hist : List (Row K)) (one : List (One K)) (names : List Name)
    (chan : Option (List (ℕ × Name))) :
    (which ≠ (chars! "S1") → which ≠ (chars! "S2") → grb myr which hist one names chan = .error .value) ∧
    (chosen w one = [] → grb myr (nameOf w) hist one names chan = .ok ⟨[], [], none⟩) ∧
    ((∃ i ∈ chosen w one, rowsOf hist i = []) → grb myr (nameOf w) hist one names chan = .error .key) ∧
    (chosen w one ≠ [] → (births w none ((chosen w one).flatMap (rowsOf hist))).length ≠ (chosen w one).length → ∀ T, grb myr (nameOf w) hist one names chan ≠ .ok T) := by
  have hw : decide (nameOf w = (chars! "S1")) = w := by cases w <;> decide +kernel
  refine ⟨fun h1 h2 => ?_, fun he => ?_, fun hx => ?_, fun hne hl T hT => ?_⟩
  · unfold grb
    rw [if_pos ⟨h1, h2⟩]
  · unfold grb
    rw [if_neg (by cases w <;> decide +kernel)]
    dsimp only
    rw [hw]
    exact if_pos he
  · unfold grb
    rw [if_neg (by cases w <;> decide +kernel)]
    dsimp only
    rw [hw]
    obtain ⟨i, hi, hr⟩ := hx
    have hne : chosen w one ≠ [] := by intro e; rw [e] at hi; simp at hi
    refine Eq.trans (if_neg hne) ?_
    have hl : loc Row.idx hist (chosen w one) = .error .key := by
      unfold loc
      rw [if_pos]
      exact List.any_eq_true.2 ⟨i, hi, by unfold rowsOf at hr; rw [hr]; rfl⟩
    change (match loc Row.idx hist (chosen w one) with | .error e => _ | .ok sel => _) = _
    rw [hl]
  · exact hl (grb_ok hT hne).2.1

/-! A concrete selection: two binaries, the second without a disk. -/

def row (i : ℕ) (s1 step : String) (t m : ℚ) : Row ℚ := ⟨i, s1, "MS", "detached", "", step, t, fun c => if c = (chars! "S1_mass") then some m else none⟩
def hist1 : List (Row ℚ) := [row 0 "MS" "initial_cond" 0 40, row 0 "He_star" "step_detached" 5 30, row 0 "BH" "step_SN" 5 20, row 0 "BH" "step_end" 9 20,
  row 1 "MS" "initial_cond" 0 25, row 1 "MS" "step_end" 9 25, row 2 "MS" "initial_cond" 0 50, row 2 "BH" "step_SN" 4 30]
def one1 : List (One ℚ) := [⟨0, some 1, none, fun _ => none⟩, ⟨1, some 0, none, fun _ => none⟩, ⟨2, some 2, none, fun _ => none⟩]

example : Born true (rowsOf hist1 0) (row 0 "He_star" "step_detached" 5 30) (row 0 "BH" "step_SN" 5 20) :=
  ⟨[row 0 "MS" "initial_cond" 0 40], [row 0 "BH" "step_end" 9 20], rfl, by decide, by decide, by
    rw [List.isChain_cons_cons]; exact ⟨by decide, List.IsChain.singleton _⟩⟩

example : ((grb id (chars! "S1") hist1 one1 [] none).toOption.map fun T => (T.index, (T.cols.filter fun c => c.1 == (chars! "S1_mass_preSN") ||
    c.1 == (chars! "S1_mass_postSN") || c.1 == (chars! "time")).map (·.2))) =
    some ([0, 2], [[some 30, some 50], [some 20, some 30], [some 5, some 4]]) := by decide +kernel

/-- **C86** Violated: rows are counted over all the binaries, so that a binary selected which does not become a black hole in a supernova is given the
values of another one which does so twice. -/
theorem C86_shifted_violated : ∃ (hist : List (Row ℚ)) (one : List (One ℚ)), chosen true one = [0, 1] ∧
    (∀ r ∈ rowsOf hist 1, r.s1 ≠ "BH") ∧
    ((grb id (chars! "S1") hist one [] none).toOption.map fun T => (T.index, (T.cols.filter fun c => c.1 == (chars! "S1_mass_postSN")).map (·.2))) =
      some ([0, 1], [[some 20, some 19]]) := by
  refine ⟨[row 0 "MS" "initial_cond" 0 40, row 0 "BH" "step_SN" 5 20, row 0 "NS" "step_x" 5 20, row 0 "BH" "step_SN" 6 19, row 1 "MS" "initial_cond" 0 25],
    [⟨0, some 1, none, fun _ => none⟩, ⟨1, some 1, none, fun _ => none⟩], by decide +kernel, by decide +kernel, by decide +kernel⟩

/-- **C86** Violated: a channel without the collapse gets the mark of a collapse all the same. -/
theorem C86_channel_violated : ((grb id (chars! "S1") hist1 one1 [] (some [(0, (chars! "ZAMS_oRLO1_END")), (2, (chars! "ZAMS_CC1_END"))])).toOption.map (·.channel)) =
    some (some [some (chars! "ZAMS_oRLO1_END_CC1"), some (chars! "ZAMS_CC1")]) := by decide +kernel

/-! ### Pairs of black holes -/

/-- **C86** Assigning by number: each binary gets the value with its own number, or none. -/
theorem C86_align {V : Type} {index : List ℕ} {s : List (ℕ × Option V)} {r : List (Option V)} (h : align index s = .ok r) :
    r.length = index.length ∧ (index.Nodup → ∀ (k i : ℕ), index[k]? = some i →
      ((∃ v, (i, v) ∈ s ∧ r[k]? = some v) ∨ (∀ v, (i, v) ∉ s) ∧ r[k]? = some none) ∧ ∀ v, (i, v) ∈ s → r[k]? = some v) := by
  unfold align at h
  by_cases he : s.map (·.1) = index
  · rw [if_pos he] at h
    simp only [Except.ok.injEq] at h
    subst h
    refine ⟨by rw [← he]; simp, fun hn k i hk => ?_⟩
    rw [← he] at hn hk
    rw [List.getElem?_map] at hk
    cases hs : s[k]? with
    | none => rw [hs] at hk; simp at hk
    | some p =>
      rw [hs] at hk
      simp only [Option.map_some, Option.some.injEq] at hk
      have hm := List.mem_of_getElem? hs
      have hu : ∀ v, (i, v) ∈ s → v = p.2 := by
        intro v hv
        have := List.inj_on_of_nodup_map hn hv hm hk.symm
        rw [← this]
      refine ⟨Or.inl ⟨p.2, by rw [← hk]; exact hm, by rw [List.getElem?_map, hs]; rfl⟩, fun v hv => ?_⟩
      rw [hu v hv, List.getElem?_map, hs]
      rfl
  · rw [if_neg he] at h
    by_cases hd : ¬ (s.map (·.1)).Nodup
    · rw [if_pos hd] at h; simp at h
    · rw [if_neg hd] at h
      rw [not_not] at hd
      simp only [Except.ok.injEq] at h
      subst h
      refine ⟨by simp, fun _ k i hk => ?_⟩
      rw [List.getElem?_map, hk]
      simp only [Option.map_some, Option.some.injEq]
      cases hf : s.find? (fun p => p.1 == i) with
      | none =>
        rw [List.find?_eq_none] at hf
        have hno : ∀ v, (i, v) ∉ s := fun v hv => hf _ hv (by simp)
        exact ⟨Or.inr ⟨hno, rfl⟩, fun v hv => absurd hv (hno v)⟩
      | some p =>
        have hm := List.mem_of_find?_eq_some hf
        have hp := List.find?_some hf
        simp only [beq_iff_eq] at hp
        have hu : ∀ v, (i, v) ∈ s → v = p.2 := by
          intro v hv
          have := List.inj_on_of_nodup_map hd hv hm hp.symm
          rw [← this]
        refine ⟨Or.inl ⟨p.2, by rw [← hp]; exact hm, rfl⟩, fun v hv => ?_⟩
        rw [hu v hv]
        rfl

/-- The value of a column for the binary at place `k`. -/
def Table.at (T : Table K) (c : Name) (k : ℕ) : Option K := (((T.cols.find? fun p => p.1 == c).map (·.2)).bind fun l => l[k]?).join

theorem getD_eq {V : Type} (l : List (Option V)) (k : ℕ) : l.getD k none = (l[k]?).join := by
  rw [List.getD_eq_getElem?_getD]
  cases l[k]? <;> rfl

/-- **C86** A pair of black holes: if row `b` is the only one of its binary just after the second supernova and row `e` the only end, then the table
holds for that binary the time of the end, the time from the supernova to the end, masses, spins, period and eccentricity of row `b`, and the tilts
and the metallicity of its line. -/
theorem C86_pair [Sub K] (F : Funs K) {hist : List (Row K)} {one : List (One K)} {T : Table K} (hn : (one.map (·.idx)).Nodup)
    (h : bbh F hist one none = .ok T) (k : ℕ) (o : One K) (ho : one[k]? = some o) (b e : Row K)
    (hb : b ∈ hist) (hbi : b.idx = o.idx) (hb3 : b.s1 = "BH" ∧ b.s2 = "BH" ∧ b.step = "step_SN" ∧ b.state = "detached") (he : e ∈ hist) (hei : e.idx = o.idx) (he2 : e.event = "END") :
    T.index = one.map (·.idx) ∧ T.at (chars! "time") k = some (F.myr e.time) ∧ T.at (chars! "t_inspiral") k = some (F.myr e.time - F.myr b.time) ∧
    T.at (chars! "S1_mass") k = b.col (chars! "S1_mass") ∧ T.at (chars! "S2_mass") k = b.col (chars! "S2_mass") ∧
    T.at (chars! "S1_spin") k = b.col (chars! "S1_spin") ∧ T.at (chars! "S2_spin") k = b.col (chars! "S2_spin") ∧
    T.at (chars! "orbital_period") k = b.col (chars! "orbital_period") ∧ T.at (chars! "eccentricity") k = b.col (chars! "eccentricity") ∧
    T.at (chars! "metallicity") k = o.col (chars! "metallicity") ∧
    T.at (chars! "S1_spin_orbit_tilt_at_merger") k = o.col (chars! "S1_spin_orbit_tilt_second_SN") ∧
    T.at (chars! "S2_spin_orbit_tilt_at_merger") k = o.col (chars! "S2_spin_orbit_tilt_second_SN") ∧
    ∀ x y, b.col (chars! "S1_mass") = some x → b.col (chars! "S2_mass") = some y →
      T.at (chars! "chirp_mass") k = some (F.chirp x y) ∧ T.at (chars! "mass_ratio") k = some (F.ratio x y) ∧
      T.at (chars! "chi_eff") k = some (F.chi x y (b.col (chars! "S1_spin")) (b.col (chars! "S2_spin")) (o.col (chars! "S1_spin_orbit_tilt_second_SN"))
        (o.col (chars! "S2_spin_orbit_tilt_second_SN"))) := by
  have hb2 : both b = true := by simp [both, hb3.1, hb3.2.1, hb3.2.2.1, hb3.2.2.2]
  have hk : (one.map (·.idx))[k]? = some o.idx := by rw [List.getElem?_map, ho]; rfl
  have hcol : ∀ (c : Row K → Option K) r, align (one.map (·.idx)) ((hist.filter both).map fun r => (r.idx, c r)) = .ok r → r[k]? = some (c b) := by
    intro c r hr
    exact ((C86_align hr).2 hn k _ hk).2 _ (List.mem_map.2 ⟨b, List.mem_filter.2 ⟨hb, hb2⟩, by rw [hbi]⟩)
  have hend : ∀ r, align (one.map (·.idx)) ((hist.filter fun r => r.event == "END").map fun r => (r.idx, some (F.myr r.time))) = .ok r → r[k]? = some (some (F.myr e.time)) := by
    intro r hr
    exact ((C86_align hr).2 hn k _ hk).2 _ (List.mem_map.2 ⟨e, List.mem_filter.2 ⟨he, by simp [he2]⟩, by rw [hei]⟩)
  unfold bbh at h
  dsimp only at h
  cases h1 : align (one.map (·.idx)) ((hist.filter fun r => r.event == "END").map fun r => (r.idx, some (F.myr r.time))) with
  | error e => rw [h1] at h; cases h
  | ok r1 =>
  rw [h1] at h
  cases h2 : align (one.map (·.idx)) ((hist.filter both).map fun r => (r.idx, some (F.myr r.time))) with
  | error e => rw [h2] at h; cases h
  | ok r2 =>
  rw [h2] at h
  cases h3 : align (one.map (·.idx)) ((hist.filter both).map fun r => (r.idx, r.col (chars! "S1_mass"))) with
  | error e => rw [h3] at h; cases h
  | ok r3 =>
  rw [h3] at h
  cases h4 : align (one.map (·.idx)) ((hist.filter both).map fun r => (r.idx, r.col (chars! "S2_mass"))) with
  | error e => rw [h4] at h; cases h
  | ok r4 =>
  rw [h4] at h
  cases h5 : align (one.map (·.idx)) ((hist.filter both).map fun r => (r.idx, r.col (chars! "S1_spin"))) with
  | error e => rw [h5] at h; cases h
  | ok r5 =>
  rw [h5] at h
  cases h6 : align (one.map (·.idx)) ((hist.filter both).map fun r => (r.idx, r.col (chars! "S2_spin"))) with
  | error e => rw [h6] at h; cases h
  | ok r6 =>
  rw [h6] at h
  cases h7 : align (one.map (·.idx)) ((hist.filter both).map fun r => (r.idx, r.col (chars! "orbital_period"))) with
  | error e => rw [h7] at h; cases h
  | ok r7 =>
  rw [h7] at h
  cases h8 : align (one.map (·.idx)) ((hist.filter both).map fun r => (r.idx, r.col (chars! "eccentricity"))) with
  | error e => rw [h8] at h; cases h
  | ok r8 =>
  rw [h8] at h
  simp only [Except.ok.injEq] at h
  have e1 := hend _ h1
  have e2 := hcol (fun r => some (F.myr r.time)) _ h2
  have e3 := hcol (fun r => r.col (chars! "S1_mass")) _ h3
  have e4 := hcol (fun r => r.col (chars! "S2_mass")) _ h4
  have e5 := hcol (fun r => r.col (chars! "S1_spin")) _ h5
  have e6 := hcol (fun r => r.col (chars! "S2_spin")) _ h6
  have e7 := hcol (fun r => r.col (chars! "orbital_period")) _ h7
  have e8 := hcol (fun r => r.col (chars! "eccentricity")) _ h8
  have tilt : ∀ c, ((one.map fun o => o.col c)[k]?).join = o.col c := by
    intro c
    rw [List.getElem?_map, ho]
    rfl
  have hlt : k < one.length := (List.getElem?_eq_some_iff.1 ho).1
  subst h
  refine ⟨rfl, ?_, ?_, ?_, ?_, ?_, ?_, ?_, ?_, tilt _, tilt _, tilt _, fun x y hx hy => ⟨?_, ?_, ?_⟩⟩
  · show (r1[k]?).join = _
    rw [e1]; rfl
  · show ((zip2 _ r1 r2)[k]?).join = _
    unfold zip2
    rw [List.getElem?_zipWith, e1, e2]
    rfl
  · show (r3[k]?).join = _
    rw [e3]; rfl
  · show (r4[k]?).join = _
    rw [e4]; rfl
  · show (r5[k]?).join = _
    rw [e5]; rfl
  · show (r6[k]?).join = _
    rw [e6]; rfl
  · show (r7[k]?).join = _
    rw [e7]; rfl
  · show (r8[k]?).join = _
    rw [e8]; rfl
  · show ((zip2 _ r3 r4)[k]?).join = _
    unfold zip2
    rw [List.getElem?_zipWith, e3, e4]
    dsimp only
    rw [hx, hy]
    rfl
  · show ((zip2 _ r3 r4)[k]?).join = _
    unfold zip2
    rw [List.getElem?_zipWith, e3, e4]
    dsimp only
    rw [hx, hy]
    rfl
  · show (((List.range (one.map (·.idx)).length).map _)[k]?).join = _
    rw [List.getElem?_map, List.getElem?_range (by simpa using hlt)]
    simp only [Option.map_some, Option.join_some, getD_eq, e3, e4, e5, e6, hx, hy, tilt]

/-- **C86** A binary without a row in which both stars are black holes, detached and just after a supernova, has no masses, spins, period or
eccentricity in the table: rows of one black hole do not count. -/
theorem C86_no_pair [Sub K] (F : Funs K) {hist : List (Row K)} {one : List (One K)} {T : Table K} (hn : (one.map (·.idx)).Nodup)
    (h : bbh F hist one none = .ok T) (k : ℕ) (o : One K) (ho : one[k]? = some o)
    (hno : ∀ b ∈ hist, b.idx = o.idx → ¬ (b.s1 = "BH" ∧ b.s2 = "BH" ∧ b.step = "step_SN" ∧ b.state = "detached")) :
    T.at (chars! "S1_mass") k = none ∧ T.at (chars! "S2_mass") k = none ∧ T.at (chars! "S1_spin") k = none ∧ T.at (chars! "S2_spin") k = none ∧
    T.at (chars! "orbital_period") k = none ∧ T.at (chars! "eccentricity") k = none ∧ T.at (chars! "t_inspiral") k = none ∧ T.at (chars! "chirp_mass") k = none ∧
    T.at (chars! "mass_ratio") k = none ∧ T.at (chars! "chi_eff") k = none := by
  have hk : (one.map (·.idx))[k]? = some o.idx := by rw [List.getElem?_map, ho]; rfl
  have hnb : ∀ b ∈ hist, b.idx = o.idx → both b = false := by
    intro b hb hi
    have := hno b hb hi
    unfold both
    by_contra hc
    simp only [Bool.not_eq_false, Bool.and_eq_true, beq_iff_eq] at hc
    exact this ⟨hc.1.1.1, hc.1.1.2, hc.1.2, hc.2⟩
  have hcol : ∀ (c : Row K → Option K) r, align (one.map (·.idx)) ((hist.filter both).map fun r => (r.idx, c r)) = .ok r → r[k]? = some none := by
    intro c r hr
    rcases ((C86_align hr).2 hn k _ hk).1 with ⟨v, hv, -⟩ | ⟨-, hv⟩
    · obtain ⟨b, hb, e⟩ := List.mem_map.1 hv
      obtain ⟨hb, hb2⟩ := List.mem_filter.1 hb
      have := hnb b hb (Prod.mk.inj e).1
      rw [hb2] at this; cases this
    · exact hv
  unfold bbh at h
  dsimp only at h
  cases h1 : align (one.map (·.idx)) ((hist.filter fun r => r.event == "END").map fun r => (r.idx, some (F.myr r.time))) with
  | error e => rw [h1] at h; cases h
  | ok r1 =>
  rw [h1] at h
  cases h2 : align (one.map (·.idx)) ((hist.filter both).map fun r => (r.idx, some (F.myr r.time))) with
  | error e => rw [h2] at h; cases h
  | ok r2 =>
  rw [h2] at h
  cases h3 : align (one.map (·.idx)) ((hist.filter both).map fun r => (r.idx, r.col (chars! "S1_mass"))) with
  | error e => rw [h3] at h; cases h
  | ok r3 =>
  rw [h3] at h
  cases h4 : align (one.map (·.idx)) ((hist.filter both).map fun r => (r.idx, r.col (chars! "S2_mass"))) with
  | error e => rw [h4] at h; cases h
  | ok r4 =>
  rw [h4] at h
  cases h5 : align (one.map (·.idx)) ((hist.filter both).map fun r => (r.idx, r.col (chars! "S1_spin"))) with
  | error e => rw [h5] at h; cases h
  | ok r5 =>
  rw [h5] at h
  cases h6 : align (one.map (·.idx)) ((hist.filter both).map fun r => (r.idx, r.col (chars! "S2_spin"))) with
  | error e => rw [h6] at h; cases h
  | ok r6 =>
  rw [h6] at h
  cases h7 : align (one.map (·.idx)) ((hist.filter both).map fun r => (r.idx, r.col (chars! "orbital_period"))) with
  | error e => rw [h7] at h; cases h
  | ok r7 =>
  rw [h7] at h
  cases h8 : align (one.map (·.idx)) ((hist.filter both).map fun r => (r.idx, r.col (chars! "eccentricity"))) with
  | error e => rw [h8] at h; cases h
  | ok r8 =>
  rw [h8] at h
  simp only [Except.ok.injEq] at h
  have e2 := hcol (fun r => some (F.myr r.time)) _ h2
  have e3 := hcol (fun r => r.col (chars! "S1_mass")) _ h3
  have e4 := hcol (fun r => r.col (chars! "S2_mass")) _ h4
  have e5 := hcol (fun r => r.col (chars! "S1_spin")) _ h5
  have e6 := hcol (fun r => r.col (chars! "S2_spin")) _ h6
  have e7 := hcol (fun r => r.col (chars! "orbital_period")) _ h7
  have e8 := hcol (fun r => r.col (chars! "eccentricity")) _ h8
  have hlt : k < one.length := (List.getElem?_eq_some_iff.1 ho).1
  have hz : ∀ (f : K → K → K) (x y : List (Option K)), (x[k]? = some none ∨ y[k]? = some none) → ((zip2 (lift2 f) x y)[k]?).join = none := by
    intro f x y hxy
    unfold zip2
    rw [List.getElem?_zipWith]
    rcases hxy with e | e <;> rw [e]
    · cases y[k]? <;> simp [lift2]
    · cases hx : x[k]? with
      | none => rfl
      | some v => cases v <;> rfl
  subst h
  refine ⟨?_, ?_, ?_, ?_, ?_, ?_, ?_, ?_, ?_, ?_⟩
  · show (r3[k]?).join = _
    rw [e3]; rfl
  · show (r4[k]?).join = _
    rw [e4]; rfl
  · show (r5[k]?).join = _
    rw [e5]; rfl
  · show (r6[k]?).join = _
    rw [e6]; rfl
  · show (r7[k]?).join = _
    rw [e7]; rfl
  · show (r8[k]?).join = _
    rw [e8]; rfl
  · exact hz _ _ _ (Or.inr e2)
  · exact hz _ _ _ (Or.inl e3)
  · exact hz _ _ _ (Or.inl e3)
  · show (((List.range (one.map (·.idx)).length).map _)[k]?).join = _
    rw [List.getElem?_map, List.getElem?_range (by simpa using hlt)]
    simp only [Option.map_some, Option.join_some, getD_eq, e3]

/-- **C86** Two rows of a binary just after the second supernova are refused, if other binaries have none or the order is another. -/
theorem C86_twice [Sub K] (F : Funs K) (hist : List (Row K)) (one : List (One K)) (chan : Option (List (ℕ × Name)))
    (hn : (one.map (·.idx)).Nodup) (hd : ¬ ((hist.filter both).map (·.idx)).Nodup) : bbh F hist one chan = .error .value := by
  have : align (one.map (·.idx)) ((hist.filter both).map fun r => (r.idx, some (F.myr r.time))) = .error .value := by
    unfold align
    rw [List.map_map]
    have e : ((hist.filter both).map ((fun p : ℕ × Option K => p.1) ∘ fun r => (r.idx, some (F.myr r.time)))) = (hist.filter both).map (·.idx) := rfl
    rw [e, if_neg, if_pos hd]
    intro hh
    rw [hh] at hd
    exact hd hn
  unfold bbh
  dsimp only
  rw [this]
  cases align (one.map (·.idx)) ((hist.filter fun r => r.event == "END").map fun r => (r.idx, some (F.myr r.time))) <;> rfl

def pair (i : ℕ) (event step : String) (t : ℚ) : Row ℚ := ⟨i, "BH", "BH", "detached", event, step, t, fun c => if c = (chars! "S1_mass") then some 30 else
  if c = (chars! "S2_mass") then some 20 else none⟩
def funs : Funs ℚ := ⟨fun t => t / 1000000, fun a b => a + b, fun a b => a / b, fun a b _ _ _ _ => a - b⟩

example : ((bbh funs [row 0 "MS" "initial_cond" 0 40, pair 0 "" "step_SN" 5000000, pair 0 "END" "step_end" 9000000]
    [⟨0, none, none, fun _ => some 1⟩] none).toOption.map fun T => (T.at (chars! "t_inspiral") 0, T.at (chars! "S1_mass") 0, T.at (chars! "chirp_mass") 0)) =
    some (some 4, some 30, some 50) := by decide +kernel

/-- **C86** Violated: a binary which is no pair of black holes stays in the table, with undefined values. -/
theorem C86_kept_violated : ((bbh funs [pair 0 "" "step_SN" 5000000, pair 0 "END" "step_end" 9000000, row 1 "MS" "initial_cond" 0 40]
    [⟨0, none, none, fun _ => some 1⟩, ⟨1, none, none, fun _ => some 1⟩] none).toOption.map fun T => (T.index, T.at (chars! "S1_mass") 1, T.at (chars! "time") 1)) =
    some ([0, 1], none, none) := by decide +kernel

end Verif.Transient
