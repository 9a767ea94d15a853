import Verif.Transfer
import Verif.ScrubProps
import Verif.RunLabelsProps

/-!
C170: the places of the code that decide whether a run transfers mass agree.
-/
namespace Verif.Transfer

open Verif.Frame (Name)
open Verif.MTCase (Num gtN geN ltN)
open Verif.RunLabels (Hist Phys over1 over2 cases entries stateAt flag2 Good)
open Verif.Scrub (Transfers)

variable {P : Type}

/-! ### The specification -/

/-- A row of numbers, none of which is exactly a threshold. -/
def Off (r : Scrub.BRow P) : Prop :=
  ∃ x y z : ℚ, r.rl1 = some x ∧ r.rl2 = some y ∧ r.rate = some z ∧ x ≠ 0 ∧ y ≠ 0 ∧ z ≠ -10

/-- Mass is transferred in a row of numbers: a star is larger than its Roche lobe, or the rate is above its threshold. -/
def Moving (r : Scrub.BRow P) : Prop :=
  (∃ x, r.rl1 = some x ∧ 0 < x) ∨ (∃ y, r.rl2 = some y ∧ 0 < y) ∨ ∃ z, r.rate = some z ∧ -10 < z

/-! ### One row -/

theorem over_imp (L : Look P) (r : Scrub.BRow P) (h : over1 (view L r) = true ∨ over2 (view L r) = true) :
    Moving r := by
  unfold over1 over2 MTCase.rlof1 MTCase.rlof2 RunLabels.BRow.row view gtN StarState.gt at h
  simp only [Bool.and_eq_true, Bool.or_eq_true] at h
  unfold Moving
  rcases h with ⟨h | h, -⟩ | ⟨h | h, -⟩
  · cases e : r.rl1 with
    | none => rw [e] at h; simp at h
    | some x => rw [e] at h; exact .inl ⟨x, rfl, by simpa using h⟩
  · cases e : r.rate with
    | none => rw [e] at h; simp at h
    | some x => rw [e] at h; exact .inr (.inr ⟨x, rfl, by simpa using h⟩)
  · cases e : r.rl2 with
    | none => rw [e] at h; simp at h
    | some x => rw [e] at h; exact .inr (.inl ⟨x, rfl, by simpa using h⟩)
  · cases e : r.rate with
    | none => rw [e] at h; simp at h
    | some x => rw [e] at h; exact .inr (.inr ⟨x, rfl, by simpa using h⟩)

/-- The flags find a donor in a row exactly if mass is transferred in it. -/
theorem C170_flag_row (L : Look P) (r : Scrub.BRow P) {x y : ℚ} (hx : r.rl1 = some x) (hy : r.rl2 = some y) :
    over1 (view L r) = true ∨ over2 (view L r) = true ↔ Moving r := by
  refine ⟨over_imp L r, fun h => ?_⟩
  have := MTCase.C52_transfer_reported [(view L r).row "" ""] _ (List.mem_singleton.2 rfl) x y r.rate ⟨hx, hy, rfl⟩ (by
    rcases h with ⟨a, ha, hp⟩ | ⟨a, ha, hp⟩ | ⟨a, ha, hp⟩
    · rw [hx] at ha; cases ha; exact .inl hp
    · rw [hy] at ha; cases ha; exact .inr (.inl hp)
    · exact .inr (.inr ⟨a, ha, hp⟩))
  simpa [over1, over2] using this

/-- The cut at the first overflow keeps at least the rows in which mass is transferred. -/
theorem moving_transfers (r : Scrub.BRow P) (h : Moving r) : Transfers allCols r := by
  rcases h with ⟨a, ha, hp⟩ | ⟨a, ha, hp⟩ | ⟨a, ha, hp⟩
  · exact .inl ⟨rfl, a, ha, hp.le⟩
  · exact .inr (.inl ⟨rfl, a, ha, hp.le⟩)
  · exact .inr (.inr ⟨a, ha, hp.le⟩)

/-- Off the thresholds the cut and the flags judge a row alike. -/
theorem C170_cut_row (r : Scrub.BRow P) (ho : Off r) : Transfers allCols r ↔ Moving r := by
  refine ⟨fun h => ?_, moving_transfers r⟩
  obtain ⟨x, y, z, hx, hy, hz, nx, ny, nz⟩ := ho
  rcases h with ⟨-, a, ha, hp⟩ | ⟨-, a, ha, hp⟩ | ⟨a, ha, hp⟩
  · rw [hx] at ha; cases ha; exact .inl ⟨x, hx, lt_of_le_of_ne hp (Ne.symm nx)⟩
  · rw [hy] at ha; cases ha; exact .inr (.inl ⟨y, hy, lt_of_le_of_ne hp (Ne.symm ny)⟩)
  · rw [hz] at ha; cases ha; exact .inr (.inr ⟨z, hz, lt_of_le_of_ne hp (Ne.symm nz)⟩)

/-- The cases of a star: none exactly if it does not overflow and the rate is low or not its own. -/
theorem inferCase_zero (x z : ℚ) (s : String) (d : Bool) :
    MTCase.inferCase (some (some x)) (some (some z)) s d = 0 ↔ x ≤ 0 ∧ (z ≤ -10 ∨ d = false) := by
  unfold MTCase.inferCase MTCase.leN
  simp only [Bool.and_eq_true, Bool.or_eq_true, decide_eq_true_eq, Bool.not_eq_true']
  by_cases h : x ≤ 0 ∧ (z ≤ -10 ∨ d = false)
  · simp [h]
  · rw [if_neg h]
    refine ⟨fun e => ?_, fun e => absurd e h⟩
    exfalso
    revert e
    split_ifs <;> simp

/-- The state of a binary is `detached` exactly if no mass is transferred in its row. -/
theorem C170_detached (cls : MTCase.Cls) (hcls : cls = .unstable ∨ cls = .other) (r : Scrub.BRow P) (s1 s2 : String) (g1 g2 : Option Num)
    {x y z : ℚ} (hx : r.rl1 = some x) (hy : r.rl2 = some y) (hz : r.rate = some z) :
    (MTCase.stateEvent cls (binary r s1 s2 g1 g2)).1 = some "detached" ↔ ¬ Moving r := by
  rw [MTCase.C51_state cls hcls]
  have hm : Moving r ↔ 0 < x ∨ 0 < y ∨ -10 < z := by
    unfold Moving
    rw [hx, hy, hz]
    simp
  have key : (MTCase.mt1 (binary r s1 s2 g1 g2) = 0 ∧ MTCase.mt2 (binary r s1 s2 g1 g2) = 0) ↔ ¬ Moving r := by
    unfold MTCase.mt1 MTCase.mt2 MTCase.dominating1 binary
    dsimp only
    rw [hx, hy, hz, inferCase_zero, inferCase_zero, hm]
    unfold geN
    by_cases h : y ≤ x
    · simp only [h, decide_true, Bool.not_true, Bool.true_eq_false, or_false, or_true, and_true, not_or, not_lt]
      constructor
      · rintro ⟨⟨a, b⟩, c⟩; exact ⟨a, c, b⟩
      · rintro ⟨a, c, b⟩; exact ⟨⟨a, b⟩, c⟩
    · simp only [h, decide_false, Bool.not_false, Bool.true_eq_false, or_false, or_true, and_true, not_or, not_lt]
  have n0 : ∀ k, MTCase.transfers k → k ≠ 0 := by
    intro k hk e; subst e; revert hk; decide
  by_cases h : MTCase.mt1 (binary r s1 s2 g1 g2) = 0 ∧ MTCase.mt2 (binary r s1 s2 g1 g2) = 0
  · rw [if_neg (fun c => n0 _ c.1 h.1), if_pos h]
    exact ⟨fun _ => key.1 h, fun _ => rfl⟩
  · rw [if_neg h]
    refine ⟨fun e => ?_, fun e => absurd (key.2 e) h⟩
    exfalso
    revert e
    split_ifs <;> simp

/-! ### Whole runs -/

theorem renderLoop_head : ∀ (l : List ℕ) (b : Bool), (MTCase.renderLoop b l).head? ≠ some 'F'
  | [], _ => by simp [MTCase.renderLoop]
  | n :: ns, b => by
    have ih := renderLoop_head ns b
    rw [MTCase.renderLoop]
    by_cases h9 : n = 9
    · rw [if_pos h9]; simp
    · rw [if_neg h9]
      by_cases h0 : n = 0
      · rw [if_pos h0]; simp
      · rw [if_neg h0]
        cases MTCase.label n with
        | none => exact ih
        | some s => dsimp only; cases b <;> simp

theorem renderLoop_ne : ∀ (l : List ℕ) (b : Bool), MTCase.renderLoop b l ≠ (chars! "no_RLOF")
  | [], _ => by simp [MTCase.renderLoop]
  | n :: ns, b => by
    have ih := renderLoop_ne ns b
    rw [MTCase.renderLoop]
    by_cases h9 : n = 9
    · rw [if_pos h9]; simp
    · rw [if_neg h9]
      by_cases h0 : n = 0
      · rw [if_pos h0]
        intro e
        have : MTCase.renderLoop b ns = ['F'] := by simpa using e
        exact renderLoop_head ns b (by rw [this]; rfl)
      · rw [if_neg h0]
        cases MTCase.label n with
        | none => exact ih
        | some s => dsimp only; cases b <;> simp

/-- The text of cases is never that of a run without overflow. -/
theorem flag_ne {b : Bool} {l : List ℕ} {t : Name} (h : MTCase.flag b l = some t) : t ≠ (chars! "no_RLOF") := by
  unfold MTCase.flag at h
  rw [Option.map_eq_some_iff] at h
  obtain ⟨m, -, rfl⟩ := h
  unfold MTCase.render
  split
  · decide
  · exact renderLoop_ne m false

/-- The flag is `no_RLOF` exactly if mass is transferred in no row. -/
theorem C170_flag (ph : Phys) (L : Look P) (start : Bool) (rows : List (Scrub.BRow P)) (h1 h2 : Option Hist) (tf1 : String)
    (hd : ∀ r ∈ rows, ∃ x y, r.rl1 = some x ∧ r.rl2 = some y)
    (n1 : tf1 ∉ TermFlags.tf1Error) (n2 : tf1 ∉ TermFlags.tf1Initial) :
    flag2 ph start (rows.map (view L)) h1 h2 tf1 = .ok (chars! "no_RLOF") ↔ ∀ r ∈ rows, ¬ Moving r := by
  unfold flag2
  rw [if_neg n1, if_neg n2]
  by_cases hc : ((rows.map (view L)).any fun b => gtN b.rel1 0 && gtN b.rel2 0) = true
  · rw [if_pos hc]
    constructor
    · intro e; simp only [Except.ok.injEq] at e; exact absurd e (by decide)
    · intro h
      exfalso
      rw [List.any_map, List.any_eq_true] at hc
      obtain ⟨r, hr, hg⟩ := hc
      obtain ⟨x, y, hx, hy⟩ := hd r hr
      refine h r hr (.inl ⟨x, hx, ?_⟩)
      simp only [Function.comp, view, gtN, StarState.gt, hx, hy, Bool.and_eq_true, decide_eq_true_eq] at hg
      exact hg.1
  · rw [if_neg hc]
    by_cases ho : (!(rows.map (view L)).any over1 && !(rows.map (view L)).any over2) = true
    · rw [if_pos ho]
      refine ⟨fun _ r hr hm => ?_, fun _ => rfl⟩
      obtain ⟨x, y, hx, hy⟩ := hd r hr
      simp only [Bool.and_eq_true, Bool.not_eq_true', List.any_eq_false, List.mem_map, forall_exists_index, and_imp,
        forall_apply_eq_imp_iff₂, Bool.not_eq_true] at ho
      rcases (C170_flag_row L r hx hy).2 hm with h | h
      · rw [ho.1 r hr] at h; cases h
      · rw [ho.2 r hr] at h; cases h
    · rw [if_neg ho]
      constructor
      · intro e
        exfalso
        revert e
        have i1 : (chars! "initial_RLOF") ≠ (chars! "no_RLOF") := by decide
        by_cases h3 : ((rows.map (view L)).any over1 && !start && ((rows.map (view L)).head?.map over1 == some true)) = true
        · rw [if_pos h3]; intro e; exact i1 (by injection e)
        · rw [if_neg h3]
          dsimp only
          cases hk : cases (fun i => stateAt ph h1 ((rows.map (view L)).map (·.mass1)) (some i)) over1 (·.rel1) 0 (rows.map (view L)).zipIdx with
          | error e => intro e; cases e
          | ok l1 =>
            dsimp only
            by_cases h4 : ((rows.map (view L)).any over2 && !start && ((rows.map (view L)).head?.map over2 == some true)) = true
            · rw [if_pos h4]; intro e; exact i1 (by injection e)
            · rw [if_neg h4]
              unfold RunLabels.render
              cases cases (fun i => stateAt ph h2 ((rows.map (view L)).map (·.mass2)) (some i)) over2 (·.rel2) 10 (rows.map (view L)).zipIdx with
              | error e => intro e; cases e
              | ok l2 =>
                dsimp only
                cases hf : MTCase.flag true (entries l1 l2) with
                | none => intro e; cases e
                | some t => intro e; exact flag_ne hf (by injection e)
      · intro h
        exfalso
        apply ho
        simp only [Bool.and_eq_true, Bool.not_eq_true', List.any_eq_false, List.mem_map, forall_exists_index, and_imp,
          forall_apply_eq_imp_iff₂, Bool.not_eq_true]
        constructor
        · intro r hr
          cases h' : over1 (view L r) with
          | false => rfl
          | true => exact absurd (over_imp L r (.inl h')) (h r hr)
        · intro r hr
          cases h' : over2 (view L r) with
          | false => rfl
          | true => exact absurd (over_imp L r (.inr h')) (h r hr)

/-- A run is left out of a grid that starts at overflow exactly if the grid without this option calls it `no_RLOF`. -/
theorem C170_ignored_partial (ph : Phys) (L : Look P) (sub alt : ℚ → ℚ → ℚ) (rows : List (Scrub.BRow P)) (h1 h2 : Option (Scrub.HTab P))
    (tf1 : String) (ho : ∀ r ∈ rows, Off r) (n1 : tf1 ∉ TermFlags.tf1Error) (n2 : tf1 ∉ TermFlags.tf1Initial) :
    store ph L sub alt true rows h1 h2 tf1 = .ignored ↔
      store ph L sub alt false rows h1 h2 tf1 = .flag (.ok (chars! "no_RLOF")) := by
  have hd : ∀ r ∈ rows, ∃ x y, r.rl1 = some x ∧ r.rl2 = some y := fun r hr => by
    obtain ⟨x, y, z, hx, hy, -⟩ := ho r hr
    exact ⟨x, y, hx, hy⟩
  have a := (Scrub.C14_cut_at_first_transfer sub alt allCols rows h1 h2 rfl (.inl rfl)).1
  have b := C170_flag ph L false rows (h1.map (hist L)) (h2.map (hist L)) tf1 hd n1 n2
  have c : (∀ r ∈ rows, ¬ Transfers allCols r) ↔ ∀ r ∈ rows, ¬ Moving r :=
    forall₂_congr fun r hr => not_congr (C170_cut_row r (ho r hr))
  unfold store
  rw [if_pos rfl, if_neg (by decide)]
  constructor
  · intro h
    congr 1
    apply b.2
    apply c.1
    apply a.1
    cases hk : Scrub.keepAfter sub alt allCols (some rows) h1 h2 with
    | error e => rw [hk] at h; cases h
    | ok o =>
      cases o with
      | none => rfl
      | some o => rw [hk] at h; cases h
  · intro h
    have h' := b.1 (by injection h)
    rw [a.2 (c.2 h')]

/-- Exactly at a threshold the two disagree: a star that just fills its Roche lobe keeps the run in the grid, where it is
then flagged as a run without overflow. -/
theorem C170_threshold_violated : ∃ (rows : List (Scrub.BRow Unit)) (L : Look Unit), ∀ (ph : Phys),
    store ph L (fun a b => a - b) (fun a _ => a) true rows none none "max_age" = .flag (.ok (chars! "no_RLOF")) := by
  refine ⟨[⟨(), some (-20), some 0, some (-1), 0⟩], ⟨fun _ => none, fun _ => none, fun _ => false, fun _ _ => none⟩, fun ph => ?_⟩
  have hk : Scrub.keepAfter (fun a b => a - b) (fun a _ => a) allCols
      (some [(⟨(), some (-20), some 0, some (-1), 0⟩ : Scrub.BRow Unit)]) none none =
      .ok (some (some [⟨(), some (-20), some 0, some (-1), 0⟩], none, none)) := by
    have hm : Scrub.meets allCols (⟨(), some (-20), some 0, some (-1), 0⟩ : Scrub.BRow Unit) = true := by
      simp [Scrub.meets, allCols, Scrub.ge]
    unfold Scrub.keepAfter
    simp [allCols, List.findIdx_cons]
    rw [show Scrub.meets ⟨true, true, true⟩ (⟨(), some (-20), some 0, some (-1), 0⟩ : Scrub.BRow Unit) = true from hm]
    simp
  unfold store
  rw [if_pos rfl, hk]
  dsimp only
  have hf : ∀ L : Look Unit, flag2 ph true ([⟨(), some (-20), some 0, some (-1), 0⟩].map (view L)) none none "max_age" = .ok (chars! "no_RLOF") := by
    intro L
    refine (C170_flag ph L true [⟨(), some (-20), some 0, some (-1), 0⟩] _ _ "max_age" ?_ (by decide +kernel) (by decide +kernel)).2 ?_
    · intro r hr; simp only [List.mem_singleton] at hr; subst hr; exact ⟨0, -1, rfl, rfl⟩
    · intro r hr; simp only [List.mem_singleton] at hr; subst hr
      rintro (⟨x, hx, hp⟩ | ⟨x, hx, hp⟩ | ⟨x, hx, hp⟩) <;> simp at hx <;> subst hx <;> norm_num at hp
  exact congrArg Stored.flag (hf _)

/-! ### The flag does not change with the cut -/

theorem cases_quiet {state : ℕ → Except RunLabels.Err String} {over : RunLabels.BRow → Bool} {rel : RunLabels.BRow → Num} {s : ℕ}
    {l2 : List (RunLabels.BRow × ℕ)} : ∀ {l1 : List (RunLabels.BRow × ℕ)}, (∀ p ∈ l1, over p.1 = false) →
      cases state over rel s (l1 ++ l2) = (cases state over rel s l2).map (List.replicate l1.length none ++ ·)
  | [], _ => by rw [List.nil_append]; cases cases state over rel s l2 <;> rfl
  | (b, i) :: l, h => by
    have ih := cases_quiet (state := state) (rel := rel) (s := s) (l2 := l2) (l1 := l) fun p hp => h p (List.mem_cons_of_mem _ hp)
    have hb : over b = false := h (b, i) (List.mem_cons_self ..)
    rw [List.cons_append, cases, hb]
    simp only [Bool.false_eq_true, if_false]
    rw [ih]
    cases cases state over rel s l2 <;> rfl

theorem cases_shift {state state' : ℕ → Except RunLabels.Err String} {over : RunLabels.BRow → Bool} {rel : RunLabels.BRow → Num} {s k : ℕ}
    (h : ∀ i, state (i + k) = state' i) : ∀ (l : List RunLabels.BRow) (j : ℕ),
      cases state over rel s (l.zipIdx (j + k)) = cases state' over rel s (l.zipIdx j)
  | [], _ => rfl
  | b :: l, j => by
    have ih := cases_shift (over := over) (rel := rel) (s := s) h l (j + 1)
    rw [List.zipIdx_cons, List.zipIdx_cons, cases, cases, h j, show j + k + 1 = j + 1 + k by omega, ih]

theorem entries_quiet (a b : List (Option ℕ)) : ∀ n : ℕ, entries (List.replicate n none ++ a) (List.replicate n none ++ b) = entries a b
  | 0 => rfl
  | n + 1 => by
    rw [List.replicate_succ, List.cons_append, List.cons_append, entries, entries_quiet a b n]
    rfl

theorem item_drop (l : List Num) (k i : ℕ) : RunLabels.item (l.drop k) (some i) = RunLabels.item l (some (i + k)) := by
  unfold RunLabels.item
  dsimp only
  rw [List.getElem?_drop, Nat.add_comm]

/-- The state of a star does not depend on how many rows were cut before. -/
theorem stateAt_drop (ph : Phys) (L : Look P) (h : Option (Scrub.HTab P)) (mass : List Num) (k : ℕ) (sub : ℚ → ℚ → ℚ) (a0 : ℚ) (i : ℕ) :
    stateAt ph ((h.map fun t => Scrub.shiftStar sub a0 { t with rows := t.rows.drop k }).map (hist L)) (mass.drop k) (some i) =
      stateAt ph (h.map (hist L)) mass (some (i + k)) := by
  cases h with
  | none =>
    simp only [Option.map_none, stateAt, item_drop]
  | some t =>
    have hh : hist L (Scrub.shiftStar sub a0 { t with rows := t.rows.drop k }) = fun n => (hist L t n).map (List.drop k) := by
      funext n
      unfold hist Scrub.shiftStar
      cases L.has n <;> cases t.hasAge <;> simp [List.map_drop, Function.comp_def]
    have hv : ∀ n, RunLabels.value (fun n => (hist L t n).map (List.drop k)) (some i) n = RunLabels.value (hist L t) (some (i + k)) n := by
      intro n
      unfold RunLabels.value
      dsimp only
      cases hist L t n with
      | none => rfl
      | some l => exact item_drop l k i
    have hm : RunLabels.firstMissing (fun n => (hist L t n).map (List.drop k)) = RunLabels.firstMissing (hist L t) := by
      unfold RunLabels.firstMissing
      congr 1
      funext n
      dsimp only
      cases hist L t n <;> rfl
    simp only [Option.map_some, stateAt, hh, hm, RunLabels.inputs, hv]

/-- Cutting the rows before the first overflow does not change the flag of the mass transfer, nor whether there is one:
what a grid that starts at overflow stores is the flag of the whole history. -/
theorem C170_same_flag (ph : Phys) (L : Look P) (sub alt : ℚ → ℚ → ℚ) (rows : List (Scrub.BRow P)) (h1 h2 : Option (Scrub.HTab P))
    (tf1 : String) (f : Except RunLabels.Err Name) (hs : store ph L sub alt true rows h1 h2 tf1 = .flag f) :
    f = flag2 ph true (rows.map (view L)) (h1.map (hist L)) (h2.map (hist L)) tf1 := by
  unfold store at hs
  rw [if_pos rfl] at hs
  cases hk : Scrub.keepAfter sub alt allCols (some rows) h1 h2 with
  | error e => rw [hk] at hs; cases hs
  | ok o =>
    cases o with
    | none => rw [hk] at hs; cases hs
    | some out =>
      obtain ⟨b, k1, k2⟩ := out
      rw [hk] at hs
      dsimp only at hs
      obtain ⟨pre, r, post, a0, hrows, hpre, -, e1, e2, e3⟩ :=
        (Scrub.C14_cut_at_first_transfer sub alt allCols rows h1 h2 rfl (.inl rfl)).2 _ hk
      dsimp only at e1 e2 e3
      subst e1 e2 e3
      injection hs with hs
      rw [← hs]
      have hv : ((some ((r :: post).map fun q => ({ q with age := sub q.age a0 } : Scrub.BRow P))).getD []).map (view L) = (r :: post).map (view L) := by
        rw [Option.getD_some, List.map_map]; rfl
      rw [hv]
      have hall : rows.map (view L) = pre.map (view L) ++ (r :: post).map (view L) := by rw [hrows, List.map_append]
      have q1 : ∀ q ∈ pre.map (view L), over1 q = false ∧ over2 q = false ∧ (gtN q.rel1 0 && gtN q.rel2 0) = false := by
        intro q hq
        obtain ⟨p, hp, rfl⟩ := List.mem_map.1 hq
        have nm : ¬ Moving p := fun h => hpre p hp (moving_transfers p h)
        refine ⟨?_, ?_, ?_⟩
        · cases h' : over1 (view L p) with
          | false => rfl
          | true => exact absurd (over_imp L p (.inl h')) nm
        · cases h' : over2 (view L p) with
          | false => rfl
          | true => exact absurd (over_imp L p (.inr h')) nm
        · cases h' : (gtN (view L p).rel1 0 && gtN (view L p).rel2 0) with
          | false => rfl
          | true =>
            exfalso
            apply nm
            left
            simp only [view, gtN, StarState.gt, Bool.and_eq_true] at h'
            cases hx : p.rl1 with
            | none => rw [hx] at h'; simp at h'
            | some x => rw [hx] at h'; exact ⟨x, rfl, by simpa using h'.1⟩
      generalize (r :: post).map (view L) = R at *
      generalize pre.map (view L) = Q at *
      have lenQ : Q.length = pre.length := by
        have := congrArg List.length hall
        have h₂ := congrArg List.length hrows
        have h₃ := congrArg List.length hv
        simp at this h₂ h₃
        omega
      have c0 : (Q ++ R).any (fun b => gtN b.rel1 0 && gtN b.rel2 0) = R.any (fun b => gtN b.rel1 0 && gtN b.rel2 0) := by
        rw [List.any_append, List.any_eq_false.2 (fun q hq => by rw [(q1 q hq).2.2]; decide), Bool.false_or]
      have c1 : (Q ++ R).any over1 = R.any over1 := by
        rw [List.any_append, List.any_eq_false.2 (fun q hq => by rw [(q1 q hq).1]; decide), Bool.false_or]
      have c2 : (Q ++ R).any over2 = R.any over2 := by
        rw [List.any_append, List.any_eq_false.2 (fun q hq => by rw [(q1 q hq).2.1]; decide), Bool.false_or]
      have d1 : ∀ (h : Option (Scrub.HTab P)) (m : RunLabels.BRow → Num) (over : RunLabels.BRow → Bool) (rel : RunLabels.BRow → Num) (s : ℕ),
          (∀ q ∈ Q, over q = false) →
          cases (fun i => stateAt ph (h.map (hist L)) ((Q ++ R).map m) (some i)) over rel s (Q ++ R).zipIdx =
          (cases (fun i => stateAt ph ((h.map fun t => Scrub.shiftStar sub a0 { t with rows := t.rows.drop pre.length }).map (hist L)) (R.map m) (some i))
            over rel s R.zipIdx).map (List.replicate Q.length none ++ ·) := by
        intro h m over rel s hq
        have hlen : Q.zipIdx.length = Q.length := List.length_zipIdx
        rw [List.zipIdx_append, cases_quiet (fun p hp => hq p.1 (by
          have := List.mem_map_of_mem (f := Prod.fst) hp
          simpa using this)), hlen]
        congr 1
        refine cases_shift (k := Q.length) (fun i => ?_) R 0
        have := stateAt_drop ph L h ((Q ++ R).map m) Q.length sub a0 i
        rw [List.map_append, List.drop_left' (by simp)] at this
        rw [← lenQ, List.map_append, this]
      rw [hall]
      unfold flag2
      rw [c0, c1, c2]
      simp only [Bool.not_true, Bool.and_false, Bool.false_and, Bool.false_eq_true, if_false]
      rw [d1 h1 (·.mass1) over1 (·.rel1) 0 (fun q hq => (q1 q hq).1), d1 h2 (·.mass2) over2 (·.rel2) 10 (fun q hq => (q1 q hq).2.1)]
      generalize cases _ over1 _ 0 R.zipIdx = A
      generalize cases _ over2 _ 10 R.zipIdx = B
      cases A with
      | error e => rfl
      | ok l1 =>
        cases B with
        | error e => rfl
        | ok l2 =>
          show (if _ then _ else if _ then _ else if _ then _ else if _ then _ else RunLabels.render (.ok l1) (.ok l2)) = _
          simp only [Except.map, RunLabels.render, entries_quiet]

/-- The histories that are kept begin with mass transfer: without `start_at_RLO` their flag would be that of an overflow
at the start (or of contact), so the option and the cut belong together. -/
theorem C170_begins (ph : Phys) (L : Look P) (sub alt : ℚ → ℚ → ℚ) (rows : List (Scrub.BRow P)) (h1 h2 k1 k2 : Option (Scrub.HTab P))
    (b : List (Scrub.BRow P)) (tf1 : String) (ho : ∀ r ∈ rows, Off r) (n1 : tf1 ∉ TermFlags.tf1Error) (n2 : tf1 ∉ TermFlags.tf1Initial)
    (hk : Scrub.keepAfter sub alt allCols (some rows) h1 h2 = .ok (some (some b, k1, k2)))
    (g1 : Good b.length (k1.map (hist L))) (g2 : Good b.length (k2.map (hist L))) :
    flag2 ph false (b.map (view L)) (k1.map (hist L)) (k2.map (hist L)) tf1 ∈
      [.ok (chars! "initial_RLOF"), .ok (chars! "contact_during_MS")] := by
  obtain ⟨pre, r, post, a0, hrows, -, hT, e1, -, -⟩ :=
    (Scrub.C14_cut_at_first_transfer sub alt allCols rows h1 h2 rfl (.inl rfl)).2 _ hk
  simp only [Option.some.injEq] at e1
  have hr : r ∈ rows := by rw [hrows]; simp
  obtain ⟨x, y, z, hx, hy, -⟩ := ho r hr
  have hov := (C170_flag_row L r hx hy).2 ((C170_cut_row r (ho r hr)).1 hT)
  obtain ⟨B, hB⟩ : ∃ B, b.map (view L) = view L r :: B := ⟨post.map (view L), by rw [e1]; simp [view, Function.comp_def]⟩
  have len : (b.map (view L)).length = b.length := List.length_map ..
  generalize b.map (view L) = V at *
  obtain ⟨t, ht, -, -, h3⟩ := RunLabels.C134_transfer ph false (len.symm ▸ g1) (len.symm ▸ g2) tf1
    (st1 := RunLabels.stateName ph (k1.map (hist L)) (V.map (·.mass1))) (st2 := RunLabels.stateName ph (k2.map (hist L)) (V.map (·.mass2)))
    (fun i hi => RunLabels.stateName_spec ph (by simpa [len] using g1) (by simpa using hi))
    (fun i hi => RunLabels.stateName_spec ph (by simpa [len] using g2) (by simpa using hi))
  rw [ht]
  have h3 := h3 n1 n2
  generalize RunLabels.stateName ph (k1.map (hist L)) (V.map (·.mass1)) = s1 at h3
  generalize RunLabels.stateName ph (k2.map (hist L)) (V.map (·.mass2)) = s2 at h3
  cases hc : (RunLabels.labelled s1 s2 V).any (fun r => gtN r.rel1 0 && gtN r.rel2 0) with
  | true =>
    unfold MTCase.massTransferFlag at h3
    rw [if_pos hc] at h3
    simp only [Option.some.injEq] at h3
    rw [← h3]; simp
  | false =>
    have hl : RunLabels.labelled s1 s2 V = (view L r).row (s1 0) (s2 0) :: (B.zipIdx 1).map fun p => p.1.row (s1 p.2) (s2 p.2) := by
      rw [hB]; rfl
    have := MTCase.C52_initial _ _ _ hl hc hov
    rw [h3] at this
    simp only [Option.some.injEq] at this
    rw [this]; simp

/-! ### The table of a grid -/

theorem quiet_iff (m1 m2 p : P → ℚ) (rows : List (Scrub.BRow P)) (hne : rows ≠ []) (hd : ∀ r ∈ rows, ∃ z, r.rate = some z) :
    GridTools.quiet (GridTools.maxRate (rows.map (tableRow m1 m2 p))) = true ↔ ∀ r ∈ rows, ∀ z, r.rate = some z → z < -10 := by
  unfold GridTools.maxRate
  rw [List.filterMap_map]
  have e : ((fun x : GridTools.BRow => x.rate) ∘ tableRow m1 m2 p) = fun r : Scrub.BRow P => r.rate := rfl
  rw [e]
  cases hm : (rows.filterMap fun r => r.rate).max? with
  | none =>
    exfalso
    rw [List.max?_eq_none_iff] at hm
    obtain ⟨r, l, rfl⟩ := List.exists_cons_of_ne_nil hne
    obtain ⟨z, hz⟩ := hd r (List.mem_cons_self ..)
    rw [List.filterMap_cons, hz] at hm
    cases hm
  | some x =>
    obtain ⟨hx, hle⟩ := List.max?_eq_some_iff.1 hm
    simp only [GridTools.quiet, decide_eq_true_eq]
    constructor
    · intro h r hr z hz
      exact lt_of_le_of_lt (hle z (List.mem_filterMap.2 ⟨r, hr, hz⟩)) h
    · intro h
      obtain ⟨r, hr, hz⟩ := List.mem_filterMap.1 hx
      exact h r hr x hz

/-- The table of the final values says `no_interaction` for every run flagged `no_RLOF`, and for no other unless a star
overflows at a low rate. -/
theorem C170_table_partial (ph : Phys) (L : Look P) (m1 m2 p : P → ℚ) (rows : List (Scrub.BRow P)) (h1 h2 : Option Hist) (tf1 : String)
    (hne : rows ≠ []) (ho : ∀ r ∈ rows, Off r) (n1 : tf1 ∉ TermFlags.tf1Error) (n2 : tf1 ∉ TermFlags.tf1Initial) :
    flag2 ph false (rows.map (view L)) h1 h2 tf1 = .ok (chars! "no_RLOF") ↔
      GridTools.quiet (GridTools.maxRate (rows.map (tableRow m1 m2 p))) = true ∧
        ∀ r ∈ rows, ∀ x y, r.rl1 = some x → r.rl2 = some y → x < 0 ∧ y < 0 := by
  rw [C170_flag ph L false rows h1 h2 tf1 (fun r hr => by obtain ⟨x, y, z, hx, hy, -⟩ := ho r hr; exact ⟨x, y, hx, hy⟩) n1 n2,
    quiet_iff m1 m2 p rows hne (fun r hr => by obtain ⟨x, y, z, -, -, hz, -⟩ := ho r hr; exact ⟨z, hz⟩)]
  constructor
  · intro h
    constructor
    · intro r hr z hz
      obtain ⟨_, _, z', _, _, hz', _, _, nz⟩ := ho r hr
      rw [hz] at hz'; cases hz'
      by_contra hc
      exact h r hr (.inr (.inr ⟨z, hz, lt_of_le_of_ne (not_lt.1 hc) (Ne.symm nz)⟩))
    · intro r hr x y hx hy
      obtain ⟨x', y', _, hx', hy', _, nx, ny, _⟩ := ho r hr
      rw [hx] at hx'; cases hx'
      rw [hy] at hy'; cases hy'
      constructor
      · by_contra hc
        exact h r hr (.inl ⟨x, hx, lt_of_le_of_ne (not_lt.1 hc) (Ne.symm nx)⟩)
      · by_contra hc
        exact h r hr (.inr (.inl ⟨y, hy, lt_of_le_of_ne (not_lt.1 hc) (Ne.symm ny)⟩))
  · rintro ⟨hz, hxy⟩ r hr hm
    obtain ⟨x, y, z, hx, hy, hz', -⟩ := ho r hr
    have a := hxy r hr x y hx hy
    have b := hz r hr z hz'
    rcases hm with ⟨w, hw, hp⟩ | ⟨w, hw, hp⟩ | ⟨w, hw, hp⟩
    · rw [hx] at hw; cases hw; linarith [a.1]
    · rw [hy] at hw; cases hw; linarith [a.2]
    · rw [hz'] at hw; cases hw; linarith

/-- The table looks at the rate alone: a star larger than its Roche lobe at a low rate is no interaction for the table,
while the state of the binary is not detached and the flag is not `no_RLOF`. -/
theorem C170_table_violated : ∃ rows : List (Scrub.BRow Unit), (∀ r ∈ rows, Off r) ∧
    GridTools.quiet (GridTools.maxRate (rows.map (tableRow (fun _ => 1) (fun _ => 1) (fun _ => 1)))) = true ∧
    ∀ (ph : Phys) (L : Look Unit) (h1 h2 : Option Hist), flag2 ph false (rows.map (view L)) h1 h2 "max_age" ≠ .ok (chars! "no_RLOF") := by
  have hoff : ∀ r ∈ [(⟨(), some (-20), some (1 / 10), some (-1), 0⟩ : Scrub.BRow Unit)], Off r := by
    intro r hr
    simp only [List.mem_singleton] at hr
    subst hr
    exact ⟨1 / 10, -1, -20, rfl, rfl, rfl, by norm_num, by norm_num, by norm_num⟩
  refine ⟨[⟨(), some (-20), some (1 / 10), some (-1), 0⟩], hoff, ?_, ?_⟩
  · rw [quiet_iff _ _ _ _ (by simp) (fun r hr => by simp only [List.mem_singleton] at hr; subst hr; exact ⟨_, rfl⟩)]
    intro r hr z hz
    simp only [List.mem_singleton] at hr
    subst hr
    simp only [Option.some.injEq] at hz
    subst hz
    norm_num
  · intro ph L h1 h2 e
    have := (C170_flag ph L false _ h1 h2 "max_age" (fun r hr => by
      obtain ⟨x, y, z, hx, hy, -⟩ := hoff r hr; exact ⟨x, y, hx, hy⟩) (by decide +kernel) (by decide +kernel)).1 e
    exact this _ (List.mem_singleton.2 rfl) (.inl ⟨1 / 10, rfl, by norm_num⟩)

/-! ### The flag of labelled rows, in both directions -/

theorem renderLoop_not {c : Char} (hc : c ∉ ['?', 'n', 'c', '/']) : ∀ (l : List ℕ) (b : Bool), (MTCase.renderLoop b l).head? ≠ some c
  | [], _ => by simp [MTCase.renderLoop]
  | n :: ns, b => by
    have ih := renderLoop_not hc ns b
    simp only [List.mem_cons, List.not_mem_nil, or_false, not_or] at hc
    obtain ⟨h1, h2, h3, h4⟩ := hc
    rw [MTCase.renderLoop]
    by_cases h9 : n = 9
    · rw [if_pos h9]; simpa using Ne.symm h1
    · rw [if_neg h9]
      by_cases h0 : n = 0
      · rw [if_pos h0]; simpa using Ne.symm h2
      · rw [if_neg h0]
        cases MTCase.label n with
        | none => exact ih
        | some s =>
          dsimp only
          cases b
          · simpa using Ne.symm h3
          · simpa using Ne.symm h4

/-- A text that begins with `c` continues with `a`. -/
theorem renderLoop_c : ∀ (l : List ℕ), MTCase.renderLoop false l ≠ (chars! "contact_during_MS")
  | [] => by simp [MTCase.renderLoop]
  | n :: ns => by
    have ih := renderLoop_c ns
    rw [MTCase.renderLoop]
    by_cases h9 : n = 9
    · rw [if_pos h9]; simp
    · rw [if_neg h9]
      by_cases h0 : n = 0
      · rw [if_pos h0]; simp
      · rw [if_neg h0]
        cases MTCase.label n with
        | none => exact ih
        | some s => simp

theorem flag_text {b : Bool} {l : List ℕ} {t : Name} (h : MTCase.flag b l = some t) :
    t ≠ (chars! "no_RLOF") ∧ t ≠ (chars! "contact_during_MS") ∧ t ≠ (chars! "initial_RLOF") := by
  refine ⟨flag_ne h, ?_⟩
  unfold MTCase.flag at h
  rw [Option.map_eq_some_iff] at h
  obtain ⟨m, -, rfl⟩ := h
  unfold MTCase.render
  split
  · decide
  · refine ⟨renderLoop_c m, fun e => ?_⟩
    exact renderLoop_not (c := 'i') (by decide) m false (by rw [e]; rfl)

/-- C52 in both directions, for rows of numbers: `no_RLOF` exactly if no star overflows and no rate is above its threshold in any
row; `contact_during_MS` exactly if both stars overflow in a row; `initial_RLOF` exactly if there is no contact, the run is not one
that starts at overflow, and the first row has a donor. -/
theorem C52_exact (start : Bool) (rows : List MTCase.Row) (hd : ∀ r ∈ rows, ∃ x y, r.rel1 = some x ∧ r.rel2 = some y) :
    (MTCase.massTransferFlag start rows = some (chars! "no_RLOF") ↔
      ∀ r ∈ rows, (∀ x, r.rel1 = some x → x ≤ 0) ∧ (∀ y, r.rel2 = some y → y ≤ 0) ∧ ∀ z, r.rate = some z → z ≤ -10) ∧
    (MTCase.massTransferFlag start rows = some (chars! "contact_during_MS") ↔
      ∃ r ∈ rows, ∃ x y, r.rel1 = some x ∧ r.rel2 = some y ∧ 0 < x ∧ 0 < y) ∧
    (MTCase.massTransferFlag start rows = some (chars! "initial_RLOF") ↔
      start = false ∧ (¬ ∃ r ∈ rows, ∃ x y, r.rel1 = some x ∧ r.rel2 = some y ∧ 0 < x ∧ 0 < y) ∧
        ∃ r, rows.head? = some r ∧ (MTCase.rlof1 r = true ∨ MTCase.rlof2 r = true)) := by
  have t1 : (chars! "no_RLOF") ≠ (chars! "contact_during_MS") := by decide
  have t2 : (chars! "no_RLOF") ≠ (chars! "initial_RLOF") := by decide
  have t3 : (chars! "contact_during_MS") ≠ (chars! "initial_RLOF") := by decide
  have hcon : rows.any (fun r => gtN r.rel1 0 && gtN r.rel2 0) = true ↔
      ∃ r ∈ rows, ∃ x y, r.rel1 = some x ∧ r.rel2 = some y ∧ 0 < x ∧ 0 < y := by
    rw [List.any_eq_true]
    constructor
    · rintro ⟨r, hr, h⟩
      obtain ⟨x, y, hx, hy⟩ := hd r hr
      simp only [gtN, StarState.gt, hx, hy, Bool.and_eq_true, decide_eq_true_eq] at h
      exact ⟨r, hr, x, y, hx, hy, h⟩
    · rintro ⟨r, hr, x, y, hx, hy, h⟩
      exact ⟨r, hr, by simp [gtN, StarState.gt, hx, hy, h]⟩
  have hany : (rows.any MTCase.rlof1 = true ∨ rows.any MTCase.rlof2 = true) ↔
      ¬ ∀ r ∈ rows, (∀ x, r.rel1 = some x → x ≤ 0) ∧ (∀ y, r.rel2 = some y → y ≤ 0) ∧ ∀ z, r.rate = some z → z ≤ -10 := by
    constructor
    · intro h hq
      have hrow : ∀ r ∈ rows, gtN r.rel1 0 = false ∧ gtN r.rel2 0 = false ∧ gtN r.rate (-10) = false := by
        intro r hr
        obtain ⟨x, y, hx, hy⟩ := hd r hr
        have := hq r hr
        refine ⟨by simpa [gtN, StarState.gt, hx] using this.1 x hx, by simpa [gtN, StarState.gt, hy] using this.2.1 y hy, ?_⟩
        cases hz : r.rate with
        | none => rfl
        | some z => simpa [gtN, StarState.gt] using this.2.2 z hz
      rcases h with h | h
      · obtain ⟨r, hr, h⟩ := List.any_eq_true.1 h
        simp [MTCase.rlof1, hrow r hr] at h
      · obtain ⟨r, hr, h⟩ := List.any_eq_true.1 h
        simp [MTCase.rlof2, hrow r hr] at h
    · intro h
      by_contra hc
      apply h
      intro r hr
      obtain ⟨x, y, hx, hy⟩ := hd r hr
      have key : ¬ (0 < x ∨ 0 < y ∨ ∃ w, r.rate = some w ∧ -10 < w) := fun ht =>
        hc (MTCase.C52_transfer_reported rows r hr x y r.rate ⟨hx, hy, rfl⟩ ht)
      refine ⟨fun a ha => ?_, fun a ha => ?_, fun a ha => ?_⟩
      · rw [hx] at ha; cases ha; exact not_lt.1 fun h' => key (.inl h')
      · rw [hy] at ha; cases ha; exact not_lt.1 fun h' => key (.inr (.inl h'))
      · exact not_lt.1 fun h' => key (.inr (.inr ⟨a, ha, h'⟩))
  rw [← hcon]
  by_cases c0 : rows.any (fun r => gtN r.rel1 0 && gtN r.rel2 0) = true
  · have hf : MTCase.massTransferFlag start rows = some (chars! "contact_during_MS") := by
      unfold MTCase.massTransferFlag; rw [if_pos c0]
    rw [hf]
    refine ⟨⟨fun e => absurd (Option.some.inj e).symm t1, fun h => ?_⟩, ⟨fun _ => c0, fun _ => rfl⟩,
      ⟨fun e => absurd (Option.some.inj e) t3, fun h => absurd c0 h.2.1⟩⟩
    obtain ⟨r, hr, x, y, hx, hy, h1, h2⟩ := hcon.1 c0
    exact absurd ((h r hr).1 x hx) (not_le.2 h1)
  · by_cases c1 : (!rows.any MTCase.rlof1 && !rows.any MTCase.rlof2) = true
    · have hf : MTCase.massTransferFlag start rows = some (chars! "no_RLOF") := by
        unfold MTCase.massTransferFlag; rw [if_neg c0, if_pos c1]
      have hn : ¬ (rows.any MTCase.rlof1 = true ∨ rows.any MTCase.rlof2 = true) := by
        simp only [Bool.and_eq_true, Bool.not_eq_true'] at c1
        rw [c1.1, c1.2]; simp
      rw [hf]
      refine ⟨⟨fun _ => not_not.1 fun h => hn (hany.2 h), fun _ => rfl⟩, ⟨fun e => absurd (Option.some.inj e) t1, fun h => absurd h c0⟩,
        ⟨fun e => absurd (Option.some.inj e) t2, ?_⟩⟩
      rintro ⟨-, -, r, hr, h⟩
      exfalso
      have hm : r ∈ rows := List.mem_of_mem_head? hr
      exact hn (h.imp (fun h => List.any_eq_true.2 ⟨r, hm, h⟩) fun h => List.any_eq_true.2 ⟨r, hm, h⟩)
    · have hy : rows.any MTCase.rlof1 = true ∨ rows.any MTCase.rlof2 = true := by
        by_contra h
        apply c1
        simp only [not_or, Bool.not_eq_true] at h
        rw [h.1, h.2]; rfl
      have hnq := hany.1 hy
      have hI : (start = false ∧ ∃ r, rows.head? = some r ∧ (MTCase.rlof1 r = true ∨ MTCase.rlof2 r = true)) →
          MTCase.massTransferFlag start rows = some (chars! "initial_RLOF") := by
        rintro ⟨rfl, r, hr, h⟩
        cases rows with
        | nil => cases hr
        | cons a l =>
          simp only [List.head?_cons, Option.some.injEq] at hr
          subst hr
          exact MTCase.C52_initial _ _ _ rfl (by simpa using c0) h
      by_cases c2 : (rows.any MTCase.rlof1 && !start && (rows.head?.map MTCase.rlof1 == some true)) = true
      · have hp : start = false ∧ ∃ r, rows.head? = some r ∧ (MTCase.rlof1 r = true ∨ MTCase.rlof2 r = true) := by
          simp only [Bool.and_eq_true, Bool.not_eq_true', beq_iff_eq, Option.map_eq_some_iff] at c2
          obtain ⟨⟨-, hs⟩, r, hr, h⟩ := c2
          exact ⟨hs, r, hr, .inl h⟩
        rw [hI hp]
        exact ⟨⟨fun e => absurd (Option.some.inj e).symm t2, fun h => absurd h hnq⟩,
          ⟨fun e => absurd (Option.some.inj e).symm t3, fun h => absurd h c0⟩, ⟨fun _ => ⟨hp.1, c0, hp.2⟩, fun _ => rfl⟩⟩
      · by_cases c3 : (rows.any MTCase.rlof2 && !start && (rows.head?.map MTCase.rlof2 == some true)) = true
        · have hp : start = false ∧ ∃ r, rows.head? = some r ∧ (MTCase.rlof1 r = true ∨ MTCase.rlof2 r = true) := by
            simp only [Bool.and_eq_true, Bool.not_eq_true', beq_iff_eq, Option.map_eq_some_iff] at c3
            obtain ⟨⟨-, hs⟩, r, hr, h⟩ := c3
            exact ⟨hs, r, hr, .inr h⟩
          rw [hI hp]
          exact ⟨⟨fun e => absurd (Option.some.inj e).symm t2, fun h => absurd h hnq⟩,
            ⟨fun e => absurd (Option.some.inj e).symm t3, fun h => absurd h c0⟩, ⟨fun _ => ⟨hp.1, c0, hp.2⟩, fun _ => rfl⟩⟩
        · have hf : MTCase.massTransferFlag start rows = MTCase.flag true (rows.filterMap MTCase.mtEntry) := by
            unfold MTCase.massTransferFlag; rw [if_neg c0, if_neg c1, if_neg c2, if_neg c3]
          refine ⟨⟨fun e => absurd rfl (flag_text (hf ▸ e)).1, fun h => absurd h hnq⟩,
            ⟨fun e => absurd rfl (flag_text (hf ▸ e)).2.1, fun h => absurd h c0⟩, ⟨fun e => absurd rfl (flag_text (hf ▸ e)).2.2, ?_⟩⟩
          rintro ⟨hs, -, hr⟩
          exact hI ⟨hs, hr⟩

/-! ### The state at which a run is stopped -/

/-- The values that decide the state, for a row of a history. -/
def ofRow (r : Scrub.SRow) (s h lh lhe ln : Num) : StarState.Inputs := ⟨none, s, h, r.he4, r.c12, lh, lhe, ln⟩

/-- C15.  The row at which a run is stopped before the depletion of carbon: without hydrogen in the core the star is called depleted of
helium, as the code promises, exactly if more than a hundredth of carbon is left; otherwise it is called depleted of carbon. -/
theorem C15_state (rnd : ℚ → ℚ) (rel : ℚ) (r : Scrub.SRow) (hs : Scrub.Stopped (1 / 100) (1 / 10) r) (s : ℚ) (h : ℚ) (hh : h ≤ 1 / 100)
    (lh lhe ln : Num) :
    ∃ rich, StarState.inferNormal rnd rel (ofRow r (some s) (some h) lh lhe ln) =
      .normal rich (if ∃ c, r.c12 = some c ∧ 1 / 100 < c then .coreHeDep else .coreCDep) := by
  obtain ⟨a, c, ha, hc, h1, h2⟩ := hs
  have gh : StarState.gt (some h) (1 / 100) = false := by simpa [StarState.gt] using hh
  have ghe : StarState.gt r.he4 (1 / 100) = false := by rw [ha]; simpa [StarState.gt] using h1.le
  unfold StarState.inferNormal ofRow
  simp only [gh, ghe, Bool.or_self, Bool.not_false, if_true, hc, Option.some.injEq, exists_eq_left']
  by_cases hcc : 1 / 100 < c
  · have : StarState.gt (some c) (1 / 100) = true := by simpa [StarState.gt] using hcc
    rw [this, if_pos hcc]
    exact ⟨_, rfl⟩
  · have : StarState.gt (some c) (1 / 100) = false := by simpa [StarState.gt] using hcc
    rw [this, if_neg hcc]
    exact ⟨_, rfl⟩

/-- C15.  So a run that is stopped "before central carbon depletion" can end with a star depleted of carbon. -/
theorem C15_state_violated : ∃ r : Scrub.SRow, Scrub.Stopped (1 / 100) (1 / 10) r ∧ ∀ rnd rel lh lhe ln, ∃ rich,
    StarState.inferNormal rnd rel (ofRow r (some 0) (some 0) lh lhe ln) = .normal rich .coreCDep := by
  refine ⟨⟨some 0, some 0, 0⟩, ⟨0, 0, rfl, rfl, by norm_num, by norm_num⟩, fun rnd rel lh lhe ln => ?_⟩
  obtain ⟨rich, h⟩ := C15_state rnd rel ⟨some 0, some 0, 0⟩ ⟨0, 0, rfl, rfl, by norm_num, by norm_num⟩ 0 0 (by norm_num) lh lhe ln
  refine ⟨rich, ?_⟩
  rw [h, if_neg]
  rintro ⟨c, hc, hp⟩
  simp only [Option.some.injEq] at hc
  subst hc
  norm_num at hp

/-- C15.  A stopped run counts as one with a regular end: its class is that without mass transfer, of a start in overflow, or of stable mass
transfer, never one of an unstable or unfinished run. -/
theorem C15_class (t : Name) : ∀ tf1 ∈ ["Primary got stopped before central carbon depletion", "Secondary got stopped before central carbon depletion"],
    TermFlags.inferClass tf1 t ∈ [.initialMT, .noMT, .stable, .stableReverse] := by
  intro tf1 h
  have a : tf1 ∉ TermFlags.tf1Initial ∧ tf1 ∉ TermFlags.tf1Error ∧ tf1 ∈ TermFlags.tf1Stable := by
    simp only [List.mem_cons, List.not_mem_nil, or_false] at h
    rcases h with rfl | rfl <;> decide +kernel
  unfold TermFlags.inferClass
  rw [if_neg a.2.1, if_pos a.2.2]
  split_ifs <;> simp

/-! ### Cases -/

/-- A run with a quiet row before the overflow of star 1, off the thresholds. -/
def exRows : List (Scrub.BRow Unit) :=
  [⟨(), some (-99), some (-1 / 2), some (-1), 0⟩, ⟨(), some (-5), some (1 / 10), some (-1), 3⟩, ⟨(), some (-99), some (-1), some (-1), 4⟩]

example : (∀ r ∈ exRows, Off r) ∧ Moving (exRows.getD 1 ⟨(), none, none, none, 0⟩) ∧ ¬ Moving (exRows.getD 0 ⟨(), none, none, none, 0⟩) := by
  refine ⟨?_, .inl ⟨1 / 10, rfl, by norm_num⟩, ?_⟩
  · intro r hr
    simp only [exRows, List.mem_cons, List.not_mem_nil, or_false] at hr
    rcases hr with rfl | rfl | rfl
    · exact ⟨_, _, _, rfl, rfl, rfl, by norm_num, by norm_num, by norm_num⟩
    · exact ⟨_, _, _, rfl, rfl, rfl, by norm_num, by norm_num, by norm_num⟩
    · exact ⟨_, _, _, rfl, rfl, rfl, by norm_num, by norm_num, by norm_num⟩
  · rintro (⟨x, hx, hp⟩ | ⟨x, hx, hp⟩ | ⟨x, hx, hp⟩) <;> simp [exRows] at hx <;> subst hx <;> norm_num at hp

example : "max_age" ∉ TermFlags.tf1Error ∧ "max_age" ∉ TermFlags.tf1Initial := by decide +kernel

end Verif.Transfer
