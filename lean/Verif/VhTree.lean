import Verif.VhDiagram
import Mathlib.Data.List.SplitBy
import Mathlib.Algebra.BigOperators.Group.List.Basic
/-!
Model of the tree of evolutions, `/repo/posydon/visualization/VH_diagram/PresenterMultiple.py`, class `Presenter_h`: `_sort_h` (l.183-197), `_tuple_h` (l.199-208), `_compareInfos` (l.210-224),
`_remove_duplicate` (l.226-300), `_center_column` (l.303-332), the additional line in `_diagram_presentation_h` (l.375-390) and the edges of `_paint_obl_edges` (l.476-482).

Simplifications: the code replaces entries of a table of columns and lines by blanks and moves the one that remains into the middle; the model lists the entries that remain, with the columns they
stand for, the frequency written below them and the connection drawn to the line above. Columns keep their position in the sorted table, and only the part below the current line is passed on.
Every connection is created together with the entry it leads to, so it is stored there; the list of edges in the order of the code is `edges`. All pictures are in one directory, so full paths
and file names compare alike. The test for a blank above (l.246-248, an entry of type `CaseInfos`) is the test that the column is not the one the entry above was moved to.
-/
namespace Verif.VhTree
open Verif.VhDiagram

/-- One entry of a column: a line of a diagram, or the additional text `disrupted` or `merged`. -/
inductive Pic
  | draw (p : Picture)
  | text (t : Text)
  deriving DecidableEq

/-- `_tuple_h`, l.202-208. -/
def key : Pic → Text
  | .draw (.event f) => f
  | .draw (.stars l r) => l ++ r
  | .text t => t

/-- `_compareInfos`, l.212-224. -/
def same : Pic → Pic → Bool
  | .draw (.stars l r), .draw (.stars l' r') => decide (l = l') && decide (r = r')
  | .draw (.event f), .draw (.event f') => decide (f = f')
  | .draw (.event _), .draw (.stars _ _) => false
  | .draw (.stars _ _), .draw (.event _) => false
  | .text t, .text t' => decide (t = t')
  | .draw _, .text _ => false
  | .text _, .draw _ => false

/-- The order of Python lists and texts: the first different element decides, and a beginning comes before its continuation. -/
def lexLe {α : Type} [DecidableEq α] (le : α → α → Bool) : List α → List α → Bool
  | [], _ => true
  | _ :: _, [] => false
  | x :: xs, y :: ys => if x = y then lexLe le xs ys else le x y

def charLe (a b : Char) : Bool := decide (a.toNat ≤ b.toNat)

def textLe : Text → Text → Bool := lexLe charLe

def keysLe : List Text → List Text → Bool := lexLe textLe

/-- A binary: its number, frequency and lines. -/
structure Col where
  index : ℕ
  w : ℚ
  pics : List Pic
  deriving DecidableEq

/-- `_sort_h`, l.186-197: sorting is stable, and the data of a column move with its lines. -/
def sorted (cols : List Col) : List Col := cols.mergeSort fun a b => keysLe (a.pics.map key) (b.pics.map key)

/-- A column from the current line on. -/
structure Item where
  pos : ℕ
  w : ℚ
  rest : List Pic
  deriving DecidableEq

/-- The connection of an entry to the line above: none, a line within its column, or an edge from a column (`None` on the first line). -/
inductive Link
  | none
  | vertical
  | edge (parent : Option ℕ)
  deriving DecidableEq

/-- An entry that remains: its line and column, the first and last column it stands for, its picture, frequency and connection. -/
structure Node where
  line : ℕ
  col : ℕ
  lo : ℕ
  hi : ℕ
  pic : Pic
  w : ℚ
  link : Link
  deriving DecidableEq

/-- `k + (j-k)//2`, l.286, 293, 315. -/
def mid (lo hi : ℕ) : ℕ := lo + (hi - lo) / 2

def first (g : List Item) : ℕ := (g.head?.map (·.pos)).getD 0
def last (g : List Item) : ℕ := (g.getLast?.map (·.pos)).getD 0

/-- `_center_column`, l.306-332, for one range of columns: the entry of the last column remains. -/
def node (line : ℕ) (parent : Option ℕ) (g : List Item) : Node :=
  ⟨line, mid (first g) (last g), first g, last g, (g.getLast?.bind (·.rest.head?)).getD (.text []), (g.map (·.w)).sum, .edge parent⟩

/-- The comparison l.268 of two neighbouring columns on the current line. -/
def joined (a b : Item) : Bool :=
  match a.rest.head?, b.rest.head? with
  | some p, some q => same p q
  | _, _ => false

def below (g : List Item) : List Item := g.map fun i => { i with rest := i.rest.tail }

/-- The entries of a range that consists of one column, l.234-255. -/
def alone (line : ℕ) (parent : Option ℕ) (i : Item) : List Node :=
  i.rest.mapIdx fun k p => ⟨line + k, i.pos, i.pos, i.pos, p, i.w,
    if 0 < k then .vertical else if line = 0 then .none else if parent = some i.pos then .vertical else .edge parent⟩

/-- `_remove_duplicate`, l.226-300; the first argument bounds the number of calls. The first of the shortest columns ends above the current line exactly if it is the first column with nothing
below. -/
def build : ℕ → List Item → ℕ → Option ℕ → List Node
  | 0, _, _, _ => []
  | _ + 1, [], _, _ => []
  | _ + 1, [i], line, parent => alone line parent i
  | n + 1, r, line, parent =>
    if r.all (fun i => decide (i.rest ≠ [])) then
      let gs := r.splitBy joined
      gs.map (node line parent) ++ gs.flatMap fun g => build n (below g) (line + 1) (some (mid (first g) (last g)))
    else build n (r.takeWhile fun i => decide (i.rest ≠ [])) line parent ++
      build n ((r.dropWhile fun i => decide (i.rest ≠ [])).drop 1) line parent

/-- The number of calls that is enough. -/
def size (r : List Item) : ℕ := (r.map fun i => i.rest.length + 1).sum

/-- The columns of the sorted table, with their positions from `k` on. -/
def place : ℕ → List Col → List Item
  | _, [] => []
  | k, c :: cs => ⟨k, c.w, c.pics⟩ :: place (k + 1) cs

/-- The tree of `_diagram_presentation_h`, l.392-393. -/
def nodes (cols : List Col) : List Node :=
  let r := place 0 (sorted cols)
  build (size r) r 0 none

/-- The edges in the order of the code, as parents. -/
def edges (ns : List Node) : List (Option ℕ) := ns.filterMap fun n => match n.link with | .edge p => some p | _ => none

/-- `_paint_obl_edges`, l.478-482: all edges but the first are drawn, and a column `None` is an error. -/
def paint (ns : List Node) : Except Err Unit := if ((edges ns).drop 1).any (fun p => p.isNone) then .error .type else .ok ()

/-- The lines of one binary, l.366-390: pictures and, after a disruption or merger, a text; the diagram fails without lines. -/
noncomputable def column (exist : Text → Bool) (index : ℕ) (w : ℚ) (rows : List Row) : Except Err Col :=
  match diagram rows with
  | .error e => .error e
  | .ok (ls, t) => .ok ⟨index, w, ls.map (fun l => .draw (picture exist l.1)) ++ (t.map Pic.text).toList⟩

/-! ### Specification -/

/-- The column from which a connection comes. -/
def from_ (n : Node) : Option ℕ :=
  match n.link with
  | .none => none
  | .vertical => some n.col
  | .edge p => p

/-- An entry stands for a beginning `q` of evolutions: exactly the columns from `lo` to `hi` begin with it, its picture is the last one of `q`, it is in the middle, and its frequency is the sum of
those of its columns. -/
structure IsNode (r : List Item) (line : ℕ) (q : List Pic) (n : Node) : Prop where
  line : n.line + 1 = line + q.length
  pic : q.getLast? = some n.pic
  col : n.col = mid n.lo n.hi
  lo : ∃ i ∈ r, i.pos = n.lo ∧ q <+: i.rest
  hi : ∃ i ∈ r, i.pos = n.hi ∧ q <+: i.rest
  range : ∀ i ∈ r, q <+: i.rest ↔ n.lo ≤ i.pos ∧ i.pos ≤ n.hi
  w : n.w = ((r.filter fun i => decide (q <+: i.rest)).map (·.w)).sum

/-- The entries are a tree: one for every beginning of evolutions, connected to the one for the beginning that is shorter by one. -/
def IsTree (r : List Item) (line : ℕ) (parent : Option ℕ) (ns : List Node) : Prop :=
  ∃ qn : List (List Pic × Node), qn.map Prod.snd = ns ∧ (qn.map Prod.fst).Nodup ∧
    (∀ q, q ∈ qn.map Prod.fst ↔ q ≠ [] ∧ ∃ i ∈ r, q <+: i.rest) ∧
    ∀ x ∈ qn, IsNode r line x.1 x.2 ∧ (x.1.length = 1 → from_ x.2 = parent) ∧
      ∀ y ∈ qn, ∀ c, y.1 = x.1 ++ [c] → from_ y.2 = some x.2.col

/-! ### Order -/

theorem same_iff (a b : Pic) : same a b = true ↔ a = b := by
  rcases a with (f | ⟨l, r⟩) | t <;> rcases b with (f' | ⟨l', r'⟩) | t' <;> simp [same]

structure Order {α : Type} (le : α → α → Bool) : Prop where
  total : ∀ a b, le a b = true ∨ le b a = true
  antisymm : ∀ a b, le a b = true → le b a = true → a = b
  trans : ∀ a b c, le a b = true → le b c = true → le a c = true

theorem charLe_order : Order charLe where
  total a b := by simp only [charLe, decide_eq_true_eq]; omega
  antisymm a b h1 h2 := by
    simp only [charLe, decide_eq_true_eq] at h1 h2
    exact Char.toNat_inj.1 (le_antisymm h1 h2)
  trans a b c h1 h2 := by simp only [charLe, decide_eq_true_eq] at *; omega

theorem lexLe_order {α : Type} [DecidableEq α] {le : α → α → Bool} (h : Order le) : Order (lexLe le) where
  total a := by
    induction a with
    | nil => intro b; left; rfl
    | cons x xs ih =>
      intro b
      cases b with
      | nil => right; rfl
      | cons y ys =>
        by_cases e : x = y
        · subst e
          simp only [lexLe, if_true]
          exact ih ys
        · have e' : ¬ y = x := fun h => e h.symm
          simp only [lexLe, if_neg e, if_neg e']
          exact h.total x y
  antisymm a := by
    induction a with
    | nil =>
      intro b _ h2
      cases b with
      | nil => rfl
      | cons y ys => simp [lexLe] at h2
    | cons x xs ih =>
      intro b h1 h2
      cases b with
      | nil => simp [lexLe] at h1
      | cons y ys =>
        by_cases e : x = y
        · subst e
          simp only [lexLe, if_true] at h1 h2
          rw [ih ys h1 h2]
        · have e' : ¬ y = x := fun h => e h.symm
          simp only [lexLe, if_neg e, if_neg e'] at h1 h2
          exact absurd (h.antisymm x y h1 h2) e
  trans a := by
    induction a with
    | nil => intro b c _ _; rfl
    | cons x xs ih =>
      intro b c h1 h2
      cases b with
      | nil => simp [lexLe] at h1
      | cons y ys =>
        cases c with
        | nil => simp [lexLe] at h2
        | cons z zs =>
          by_cases e : x = y
          · subst e
            by_cases e2 : x = z
            · subst e2
              simp only [lexLe, if_true] at h1 h2 ⊢
              exact ih ys zs h1 h2
            · simp only [lexLe, if_true, if_neg e2] at h1 h2 ⊢
              exact h2
          · by_cases e2 : y = z
            · subst e2
              simp only [lexLe, if_true, if_neg e] at h1 h2 ⊢
              exact h1
            · simp only [lexLe, if_neg e, if_neg e2] at h1 h2
              have h3 := h.trans x y z h1 h2
              by_cases e3 : x = z
              · subst e3
                exact absurd (h.antisymm x y h1 h2) e
              · simp only [lexLe, if_neg e3]
                exact h3

theorem textLe_order : Order textLe := lexLe_order charLe_order
theorem keysLe_order : Order keysLe := lexLe_order textLe_order

theorem lexLe_head {α : Type} [DecidableEq α] {le : α → α → Bool} (h : Order le) {x y : α} {xs ys : List α} (hl : lexLe le (x :: xs) (y :: ys) = true) :
    le x y = true ∧ (x = y → lexLe le xs ys = true) := by
  by_cases e : x = y
  · subst e
    simp only [lexLe, if_true] at hl
    exact ⟨(h.total x x).elim id id, fun _ => hl⟩
  · simp only [lexLe, if_neg e] at hl
    exact ⟨hl, fun h => absurd h e⟩

/-! ### Columns as the recursion sees them -/

/-- What the recursion needs: positions increase, keys are in order, and different pictures have different keys. -/
structure Ready (r : List Item) : Prop where
  pos : r.Pairwise fun a b => a.pos < b.pos
  keys : r.Pairwise fun a b => keysLe (a.rest.map key) (b.rest.map key) = true
  inj : ∀ i ∈ r, ∀ p ∈ i.rest, ∀ j ∈ r, ∀ q ∈ j.rest, key p = key q → p = q

theorem Ready.sublist {r s : List Item} (h : Ready r) (hs : s.Sublist r) : Ready s where
  pos := h.pos.sublist hs
  keys := h.keys.sublist hs
  inj i hi p hp j hj q hq := h.inj i (hs.subset hi) p hp j (hs.subset hj) q hq

theorem size_sublist {r s : List Item} (h : s.Sublist r) : size s ≤ size r := by
  induction h with
  | slnil => exact le_refl _
  | cons a _ ih => simp only [size, List.map_cons, List.sum_cons] at *; omega
  | cons_cons a _ ih => simp only [size, List.map_cons, List.sum_cons] at *; omega

theorem size_below {g : List Item} (h : ∀ i ∈ g, i.rest ≠ []) : size (below g) + g.length = size g := by
  induction g with
  | nil => rfl
  | cons a g ih =>
    have h1 := ih (fun i hi => h i (List.mem_cons_of_mem _ hi))
    have h2 := List.length_pos_of_ne_nil (h a (by simp))
    simp only [size, below, List.map_cons, List.sum_cons, List.length_tail, List.length_cons] at *
    omega

theorem first_le_last {g : List Item} (h : g.Pairwise fun a b => a.pos < b.pos) (i : Item) (hi : i ∈ g) : first g ≤ i.pos ∧ i.pos ≤ last g := by
  constructor
  · cases g with
    | nil => cases hi
    | cons a g =>
      simp only [first, List.head?_cons, Option.map_some, Option.getD_some]
      rcases List.mem_cons.1 hi with rfl | hi
      · exact le_refl _
      · exact (List.rel_of_pairwise_cons h hi).le
  · cases g using List.reverseRecOn with
    | nil => cases hi
    | append_singleton init x =>
      simp only [last, List.getLast?_append, List.getLast?_singleton, Option.some_or, Option.map_some, Option.getD_some]
      rcases List.mem_append.1 hi with hi | hi
      · exact ((List.pairwise_append.1 h).2.2 i hi x (by simp)).le
      · simp only [List.mem_singleton] at hi
        rw [hi]

theorem first_mem {g : List Item} (h : g ≠ []) : ∃ i ∈ g, i.pos = first g := by
  cases g with
  | nil => exact absurd rfl h
  | cons a g => exact ⟨a, by simp, rfl⟩

theorem last_mem {g : List Item} (h : g ≠ []) : ∃ i ∈ g, i.pos = last g := by
  refine ⟨g.getLast h, List.getLast_mem h, ?_⟩
  rw [last, List.getLast?_eq_some_getLast h]
  rfl

theorem Forall2_imp_mem {α β : Type} {R S : α → β → Prop} {l : List α} {m : List β} (h : List.Forall₂ R l m)
    (f : ∀ a b, a ∈ l → b ∈ m → R a b → S a b) : List.Forall₂ S l m := by
  induction h with
  | nil => exact List.Forall₂.nil
  | cons hab _ ih => exact List.Forall₂.cons (f _ _ (by simp) (by simp) hab) (ih fun a b ha hb => f a b (List.mem_cons_of_mem _ ha) (List.mem_cons_of_mem _ hb))

theorem joined_iff {a b : Item} (ha : a.rest ≠ []) : joined a b = true ↔ a.rest.head? = b.rest.head? := by
  unfold joined
  cases h1 : a.rest with
  | nil => exact absurd h1 ha
  | cons p ps =>
    cases h2 : b.rest with
    | nil => simp
    | cons q qs => simp [same_iff]

theorem chain_heads : ∀ (g : List Item), (∀ i ∈ g, i.rest ≠ []) → g.IsChain (fun x y => joined x y = true) →
    ∀ i ∈ g, i.rest.head? = g.head?.bind (·.rest.head?)
  | [], _, _, _, hi => by cases hi
  | [a], _, _, i, hi => by
    simp only [List.mem_singleton] at hi
    rw [hi]
    rfl
  | a :: b :: g, hne, hc, i, hi => by
    have h1 := (joined_iff (hne a (by simp))).1 (List.isChain_cons_cons.1 hc).1
    have ih := chain_heads (b :: g) (fun j hj => hne j (List.mem_cons_of_mem _ hj)) (List.isChain_cons_cons.1 hc).2
    rcases List.mem_cons.1 hi with rfl | hi
    · rfl
    · rw [ih i hi]
      simpa using h1.symm

/-- What one group of columns is: all columns with picture `p` on this line. -/
structure Group (r : List Item) (p : Pic) (g : List Item) : Prop where
  ne : g ≠ []
  sub : g.Sublist r
  mem : ∀ i ∈ r, i ∈ g ↔ i.rest.head? = some p
  filter : g = r.filter fun i => decide (i.rest.head? = some p)
  range : ∀ i ∈ r, (first g ≤ i.pos ∧ i.pos ≤ last g) ↔ i ∈ g

theorem groups_aux : ∀ gs : List (List Item), (∀ g ∈ gs, g ≠ []) → (∀ g ∈ gs, g.IsChain fun x y => joined x y = true) →
    gs.IsChain (fun a b => ∃ ha hb, joined (a.getLast ha) (b.head hb) = false) → Ready gs.flatten → (∀ i ∈ gs.flatten, i.rest ≠ []) →
    ∃ qs : List Pic, qs.Pairwise (fun p q => textLe (key p) (key q) = true ∧ p ≠ q) ∧ List.Forall₂ (Group gs.flatten) qs gs ∧
      ∀ p, p ∈ qs ↔ ∃ i ∈ gs.flatten, i.rest.head? = some p
  | [], _, _, _, _, _ => ⟨[], List.Pairwise.nil, List.Forall₂.nil, by simp⟩
  | g :: gs, hn, hc, hl, hr, hne => by
    have hfl : (g :: gs).flatten = g ++ gs.flatten := rfl
    rw [hfl] at hr hne
    have hr2 : Ready gs.flatten := hr.sublist (List.sublist_append_right _ _)
    obtain ⟨qs, k1, k2, k3⟩ := groups_aux gs (fun x hx => hn x (List.mem_cons_of_mem _ hx)) (fun x hx => hc x (List.mem_cons_of_mem _ hx))
      hl.of_cons hr2 (fun i hi => hne i (List.mem_append_right _ hi))
    have gn : g ≠ [] := hn g (by simp)
    have ghead : ∃ p, ∀ i ∈ g, i.rest.head? = some p := by
      have hh := chain_heads g (fun i hi => hne i (List.mem_append_left _ hi)) (hc g (by simp))
      cases g with
      | nil => exact absurd rfl gn
      | cons a g' =>
        have ha := hne a (by simp)
        cases hra : a.rest with
        | nil => exact absurd hra ha
        | cons p ps =>
          refine ⟨p, fun i hi => ?_⟩
          rw [hh i hi]
          simp [hra]
    obtain ⟨p, hp⟩ := ghead
    -- keys of later pictures are not smaller
    have hle : ∀ q ∈ qs, textLe (key p) (key q) = true := by
      intro q hq
      obtain ⟨i, hi, hiq⟩ := (k3 q).1 hq
      obtain ⟨a, ha⟩ := List.exists_mem_of_ne_nil g gn
      have hk := (List.pairwise_append.1 hr.keys).2.2 a ha i hi
      have hap := hp a ha
      cases hra : a.rest with
      | nil => rw [hra] at hap; cases hap
      | cons p' ps =>
        cases hri : i.rest with
        | nil => rw [hri] at hiq; cases hiq
        | cons q' ps' =>
          rw [hra] at hap hk
          rw [hri] at hiq hk
          simp only [List.head?_cons, Option.some.injEq] at hap hiq
          subst hap hiq
          exact (lexLe_head textLe_order hk).1
    have hinj : ∀ q ∈ qs, key p = key q → p = q := by
      intro q hq
      obtain ⟨i, hi, hiq⟩ := (k3 q).1 hq
      obtain ⟨a, ha⟩ := List.exists_mem_of_ne_nil g gn
      exact hr.inj a (List.mem_append_left _ ha) p (List.mem_of_head? (hp a ha)) i (List.mem_append_right _ hi) q (List.mem_of_head? hiq)
    have hneq : ∀ q ∈ qs, p ≠ q := by
      cases gs with
      | nil =>
        cases k2
        simp
      | cons g' gs' =>
        obtain ⟨ha, hb, hj⟩ := (List.isChain_cons_cons.1 hl).1
        cases k2 with
        | @cons q' _ qs' _ G' GS' =>
          have hh1 : g'.head hb ∈ g' := List.head_mem hb
          have hh2 := (G'.mem _ (G'.sub.subset hh1)).1 hh1
          have hpq' : p ≠ q' := by
            rintro rfl
            have := (joined_iff (hne (g.getLast ha) (List.mem_append_left _ (List.getLast_mem ha)))).2 ((hp _ (List.getLast_mem ha)).trans hh2.symm)
            rw [hj] at this
            cases this
          intro q hq
          rcases List.mem_cons.1 hq with rfl | hq
          · exact hpq'
          · rintro rfl
            have h1 := hle q' (by simp)
            have h2 := (List.rel_of_pairwise_cons k1 hq).1
            exact hpq' (hinj q' (by simp) (textLe_order.antisymm _ _ h1 h2))
    have hrest : ∀ i ∈ gs.flatten, i.rest.head? ≠ some p := by
      intro i hi he
      exact hneq p ((k3 p).2 ⟨i, hi, he⟩) rfl
    have hposg : g.Pairwise fun a b => a.pos < b.pos := (List.pairwise_append.1 hr.pos).1
    have hcross := (List.pairwise_append.1 hr.pos).2.2
    refine ⟨p :: qs, List.Pairwise.cons (fun q hq => ⟨hle q hq, hneq q hq⟩) k1, List.Forall₂.cons ?_ ?_, ?_⟩
    · refine ⟨gn, by rw [hfl]; exact List.sublist_append_left _ _, ?_, ?_, ?_⟩
      · intro i hi
        rw [hfl] at hi
        refine ⟨hp i, fun he => ?_⟩
        rcases List.mem_append.1 hi with h | h
        · exact h
        · exact absurd he (hrest i h)
      · rw [hfl, List.filter_append, List.filter_eq_self.2 (by intro i hi; simpa using hp i hi),
          List.filter_eq_nil_iff.2 (by intro i hi; simpa using hrest i hi), List.append_nil]
      · intro i hi
        rw [hfl] at hi
        refine ⟨fun ⟨_, h2⟩ => ?_, fun h => first_le_last hposg i h⟩
        rcases List.mem_append.1 hi with h | h
        · exact h
        · obtain ⟨b, hb, hbl⟩ := last_mem gn
          have := hcross b hb i h
          omega
    · refine Forall2_imp_mem k2 ?_
      intro q g' hq hg' G
      have hgsub : ∀ i ∈ g', i ∈ gs.flatten := fun i hi => List.mem_flatten.2 ⟨g', hg', hi⟩
      refine ⟨G.ne, by rw [hfl]; exact G.sub.trans (List.sublist_append_right _ _), ?_, ?_, ?_⟩
      · intro i hi
        rw [hfl] at hi
        rcases List.mem_append.1 hi with h | h
        · constructor
          · intro h'; exact absurd (hp i h) (hrest i (hgsub i h'))
          · intro h'
            rw [hp i h] at h'
            exact absurd (Option.some.inj h') (hneq q hq)
        · exact G.mem i h
      · rw [hfl, List.filter_append, List.filter_eq_nil_iff.2 (by
          intro i hi
          rw [hp i hi]
          simpa using hneq q hq), List.nil_append]
        exact G.filter
      · intro i hi
        rw [hfl] at hi
        rcases List.mem_append.1 hi with h | h
        · constructor
          · rintro ⟨h1, _⟩
            obtain ⟨b, hb, hbl⟩ := first_mem G.ne
            have := hcross i h b (hgsub b hb)
            omega
          · intro h'; exact absurd (hp i h) (hrest i (hgsub i h'))
        · exact G.range i h
    · intro q
      rw [List.mem_cons, k3 q, hfl]
      constructor
      · rintro (rfl | ⟨i, hi, he⟩)
        · obtain ⟨a, ha⟩ := List.exists_mem_of_ne_nil g gn
          exact ⟨a, List.mem_append_left _ ha, hp a ha⟩
        · exact ⟨i, List.mem_append_right _ hi, he⟩
      · rintro ⟨i, hi, he⟩
        rcases List.mem_append.1 hi with h | h
        · left
          rw [hp i h] at he
          exact (Option.some.inj he).symm
        · exact Or.inr ⟨i, h, he⟩

/-- The groups of columns on one line: each group is exactly the set of columns with one picture, and no picture has two groups. -/
theorem groups {r : List Item} (hr : Ready r) (hne : ∀ i ∈ r, i.rest ≠ []) :
    ∃ qs : List Pic, qs.Nodup ∧ List.Forall₂ (Group r) qs (r.splitBy joined) ∧ ∀ p, p ∈ qs ↔ ∃ i ∈ r, i.rest.head? = some p := by
  have hf := List.flatten_splitBy joined r
  obtain ⟨qs, h1, h2, h3⟩ := groups_aux (r.splitBy joined) (fun g hg => List.ne_nil_of_mem_splitBy hg) (fun g hg => List.isChain_of_mem_splitBy hg)
    (List.isChain_getLast_head_splitBy joined r) (by rw [hf]; exact hr) (by rw [hf]; exact hne)
  rw [hf] at h2 h3
  exact ⟨qs, h1.imp (fun h => h.2), h2, h3⟩

/-! ### The recursion makes a tree -/

theorem tree_nil (line : ℕ) (parent : Option ℕ) : IsTree [] line parent [] := ⟨[], rfl, List.nodup_nil, by simp, by simp⟩

theorem mid_self (k : ℕ) : mid k k = k := by simp [mid]

theorem map_mapIdx {α β γ : Type} (f : β → γ) (h : ℕ → α → β) (l : List α) : (l.mapIdx h).map f = l.mapIdx fun k a => f (h k a) := by
  apply List.ext_getElem
  · simp
  · intro k h1 h2
    simp

theorem tree_alone (i : Item) (line : ℕ) (parent : Option ℕ) (hp : line = 0 → parent = none) : IsTree [i] line parent (alone line parent i) := by
  set f : ℕ → Pic → Node := fun k p => ⟨line + k, i.pos, i.pos, i.pos, p, i.w,
    if 0 < k then .vertical else if line = 0 then .none else if parent = some i.pos then .vertical else .edge parent⟩ with hf
  refine ⟨i.rest.mapIdx fun k p => (i.rest.take (k + 1), f k p), ?_, ?_, ?_, ?_⟩
  · rw [map_mapIdx]
    rfl
  · rw [map_mapIdx, List.Nodup, List.pairwise_iff_getElem]
    intro a b ha hb hab he
    simp only [List.length_mapIdx] at ha hb
    simp only [List.getElem_mapIdx] at he
    have := congrArg List.length he
    simp only [List.length_take] at this
    omega
  · intro q
    rw [map_mapIdx, List.mem_mapIdx]
    constructor
    · rintro ⟨k, hk, rfl⟩
      refine ⟨?_, i, by simp, List.take_prefix _ _⟩
      intro he
      have := congrArg List.length he
      simp only [List.length_take, List.length_nil] at this
      omega
    · rintro ⟨hq, j, hj, hpre⟩
      simp only [List.mem_singleton] at hj
      subst hj
      have h1 := List.length_pos_of_ne_nil hq
      have h2 := hpre.length_le
      refine ⟨q.length - 1, by omega, ?_⟩
      rw [Nat.sub_add_cancel h1]
      exact (List.prefix_iff_eq_take.1 hpre).symm
  · intro x hx
    obtain ⟨k, hk, rfl⟩ := List.mem_mapIdx.1 hx
    refine ⟨⟨?_, ?_, ?_, ?_, ?_, ?_, ?_⟩, ?_, ?_⟩
    · simp only [hf, List.length_take]
      omega
    · simp only [hf]
      rw [List.getLast?_eq_getElem?, List.length_take]
      rw [show min (k + 1) i.rest.length - 1 = k by omega, List.getElem?_take, if_pos (by omega), List.getElem?_eq_getElem hk]
    · exact (mid_self _).symm
    · exact ⟨i, by simp, rfl, List.take_prefix _ _⟩
    · exact ⟨i, by simp, rfl, List.take_prefix _ _⟩
    · intro j hj
      simp only [List.mem_singleton] at hj
      subst hj
      exact ⟨fun _ => ⟨le_refl _, le_refl _⟩, fun _ => List.take_prefix _ _⟩
    · dsimp only
      rw [List.filter_cons_of_pos (by simpa using List.take_prefix _ _)]
      simp [hf]
    · intro hlen
      simp only [List.length_take] at hlen
      have hk0 : k = 0 := by omega
      subst hk0
      by_cases h0 : line = 0
      · simp [from_, hf, h0, hp h0]
      · by_cases h1 : parent = some i.pos
        · simp [from_, hf, h0, h1]
        · simp [from_, hf, h0, h1]
    · intro y hy c hyc
      obtain ⟨k', hk', rfl⟩ := List.mem_mapIdx.1 hy
      have := congrArg List.length hyc
      simp only [List.length_take, List.length_append, List.length_cons, List.length_nil] at this
      have hk1 : 0 < k' := by omega
      simp [from_, hf, hk1]

theorem cons_prefix {α : Type} (p : α) (q l : List α) : (p :: q) <+: l ↔ l.head? = some p ∧ q <+: l.tail := by
  cases l with
  | nil => simp
  | cons a l =>
    rw [List.cons_prefix_cons]
    simp [eq_comm]

theorem below_mem {g : List Item} {j : Item} (h : j ∈ below g) : ∃ i ∈ g, j.pos = i.pos ∧ j.w = i.w ∧ j.rest = i.rest.tail := by
  obtain ⟨i, hi, rfl⟩ := List.mem_map.1 h
  exact ⟨i, hi, rfl, rfl, rfl⟩

theorem Group.head {r : List Item} {p : Pic} {g : List Item} (G : Group r p g) (i : Item) (hi : i ∈ g) : i.rest.head? = some p :=
  (G.mem i (G.sub.subset hi)).1 hi

theorem Group.bounds {r : List Item} {p : Pic} {g : List Item} (G : Group r p g) (i : Item) (hi : i ∈ g) : first g ≤ i.pos ∧ i.pos ≤ last g :=
  (G.range i (G.sub.subset hi)).2 hi

/-- An entry below a group is an entry of the whole range. -/
theorem lift_node {r : List Item} {p : Pic} {g : List Item} (G : Group r p g) {line : ℕ} {q : List Pic} {n : Node} (hq : q ≠ [])
    (h : IsNode (below g) (line + 1) q n) : IsNode r line (p :: q) n := by
  have key : ∀ i ∈ g, (p :: q <+: i.rest ↔ q <+: i.rest.tail) := by
    intro i hi
    rw [cons_prefix]
    simp [G.head i hi]
  have hlo : ∃ i ∈ g, i.pos = n.lo ∧ q <+: i.rest.tail := by
    obtain ⟨j, hj, hpos, hpre⟩ := h.lo
    obtain ⟨i, hi, e1, _, e3⟩ := below_mem hj
    exact ⟨i, hi, by rw [← e1, hpos], by rw [← e3]; exact hpre⟩
  have hhi : ∃ i ∈ g, i.pos = n.hi ∧ q <+: i.rest.tail := by
    obtain ⟨j, hj, hpos, hpre⟩ := h.hi
    obtain ⟨i, hi, e1, _, e3⟩ := below_mem hj
    exact ⟨i, hi, by rw [← e1, hpos], by rw [← e3]; exact hpre⟩
  refine ⟨?_, ?_, h.col, ?_, ?_, ?_, ?_⟩
  · have := h.line
    simp only [List.length_cons]
    omega
  · rw [List.getLast?_cons, ← h.pic]
    obtain ⟨x, hx⟩ := Option.ne_none_iff_exists'.1 (show q.getLast? ≠ none by simpa using hq)
    rw [hx]
    rfl
  · obtain ⟨i, hi, e, hpre⟩ := hlo
    exact ⟨i, G.sub.subset hi, e, (key i hi).2 hpre⟩
  · obtain ⟨i, hi, e, hpre⟩ := hhi
    exact ⟨i, G.sub.subset hi, e, (key i hi).2 hpre⟩
  · intro i hi
    by_cases hg : i ∈ g
    · rw [key i hg]
      exact h.range { i with rest := i.rest.tail } (List.mem_map.2 ⟨i, hg, rfl⟩)
    · constructor
      · intro hpre
        exact absurd ((G.mem i hi).2 ((cons_prefix _ _ _).1 hpre).1) hg
      · rintro ⟨h1, h2⟩
        obtain ⟨a, ha, ea, _⟩ := hlo
        obtain ⟨b, hb, eb, _⟩ := hhi
        have := G.bounds a ha
        have := G.bounds b hb
        exact absurd ((G.range i hi).1 ⟨by omega, by omega⟩) hg
  · rw [h.w]
    have e1 : (below g).filter (fun i => decide (q <+: i.rest)) = below (g.filter fun i => decide (q <+: i.rest.tail)) := by
      unfold below
      rw [List.filter_map]
      rfl
    have e2 : r.filter (fun i => decide (p :: q <+: i.rest)) = g.filter fun i => decide (q <+: i.rest.tail) := by
      rw [G.filter, List.filter_filter]
      apply List.filter_congr
      intro i _
      rw [Bool.eq_iff_iff]
      simp only [decide_eq_true_eq, Bool.and_eq_true, cons_prefix]
      exact and_comm
    rw [e1, e2]
    unfold below
    rw [List.map_map]
    rfl

theorem top_node {r : List Item} {p : Pic} {g : List Item} (G : Group r p g) (line : ℕ) (parent : Option ℕ) : IsNode r line [p] (node line parent g) := by
  have key : ∀ i ∈ r, ([p] <+: i.rest ↔ i ∈ g) := by
    intro i hi
    rw [cons_prefix, G.mem i hi]
    simp
  refine ⟨rfl, ?_, rfl, ?_, ?_, ?_, ?_⟩
  · have hl := List.getLast?_eq_some_getLast G.ne
    simp only [node, hl, Option.bind_some, G.head _ (List.getLast_mem G.ne), Option.getD_some]
    rfl
  · obtain ⟨i, hi, e⟩ := first_mem G.ne
    exact ⟨i, G.sub.subset hi, e, (key i (G.sub.subset hi)).2 hi⟩
  · obtain ⟨i, hi, e⟩ := last_mem G.ne
    exact ⟨i, G.sub.subset hi, e, (key i (G.sub.subset hi)).2 hi⟩
  · intro i hi
    rw [key i hi]
    exact (G.range i hi).symm
  · simp only [node]
    conv_lhs => rw [G.filter]
    congr 2
    apply List.filter_congr
    intro i _
    rw [Bool.eq_iff_iff]
    simp only [decide_eq_true_eq, cons_prefix]
    simp

/-- The entries below one group. -/
theorem lift_tree {r : List Item} {p : Pic} {g : List Item} (G : Group r p g) {line : ℕ} {parent : Option ℕ} {ns : List Node}
    (h : IsTree (below g) (line + 1) parent ns) :
    ∃ qn : List (List Pic × Node), qn.map Prod.snd = ns ∧ (qn.map Prod.fst).Nodup ∧
      (∀ q, q ∈ qn.map Prod.fst ↔ ∃ q', q' ≠ [] ∧ q = p :: q' ∧ ∃ i ∈ r, q <+: i.rest) ∧
      ∀ x ∈ qn, IsNode r line x.1 x.2 ∧ (x.1.length = 2 → from_ x.2 = parent) ∧ ∀ y ∈ qn, ∀ c, y.1 = x.1 ++ [c] → from_ y.2 = some x.2.col := by
  obtain ⟨qn, h1, h2, h3, h4⟩ := h
  have hne : ∀ x ∈ qn, x.1 ≠ [] := fun x hx => ((h3 x.1).1 (List.mem_map_of_mem hx)).1
  refine ⟨qn.map fun x => (p :: x.1, x.2), ?_, ?_, ?_, ?_⟩
  · rw [List.map_map]
    exact h1
  · rw [List.map_map]
    have : (Prod.fst ∘ fun x : List Pic × Node => (p :: x.1, x.2)) = (fun q => p :: q) ∘ Prod.fst := rfl
    rw [this, ← List.map_map]
    exact h2.map (fun a b hab => (List.cons.inj hab).2)
  · intro q
    rw [List.map_map]
    constructor
    · intro hq
      obtain ⟨x, hx, rfl⟩ := List.mem_map.1 hq
      obtain ⟨i, hi, _, hpre⟩ := (lift_node G (hne x hx) (h4 x hx).1).lo
      exact ⟨x.1, hne x hx, rfl, i, hi, hpre⟩
    · rintro ⟨q', hq', rfl, i, hi, hpre⟩
      obtain ⟨e1, e2⟩ := (cons_prefix _ _ _).1 hpre
      have hg := (G.mem i hi).2 e1
      obtain ⟨x, hx, rfl⟩ := List.mem_map.1 ((h3 q').2 ⟨hq', { i with rest := i.rest.tail }, List.mem_map.2 ⟨i, hg, rfl⟩, e2⟩)
      exact List.mem_map.2 ⟨x, hx, rfl⟩
  · intro x' hx'
    obtain ⟨x, hx, rfl⟩ := List.mem_map.1 hx'
    obtain ⟨k1, k2, k3⟩ := h4 x hx
    refine ⟨lift_node G (hne x hx) k1, fun hl => k2 (by simpa using hl), ?_⟩
    intro y' hy' c hc
    obtain ⟨y, hy, rfl⟩ := List.mem_map.1 hy'
    exact k3 y hy c (List.cons.inj hc).2

/-- All groups of a line with what is below them. -/
theorem assemble {r : List Item} (line : ℕ) (parent : Option ℕ) (b : List Item → List Node) :
    ∀ (qs : List Pic) (gs : List (List Item)), List.Forall₂ (Group r) qs gs → qs.Nodup →
      (∀ g ∈ gs, IsTree (below g) (line + 1) (some (mid (first g) (last g))) (b g)) →
      ∃ tops sub : List (List Pic × Node), tops.map Prod.snd = gs.map (node line parent) ∧ sub.map Prod.snd = gs.flatMap b ∧
        tops.map Prod.fst = qs.map (fun p => [p]) ∧ (sub.map Prod.fst).Nodup ∧
        (∀ q, q ∈ sub.map Prod.fst ↔ ∃ p ∈ qs, ∃ q', q' ≠ [] ∧ q = p :: q' ∧ ∃ i ∈ r, q <+: i.rest) ∧
        (∀ x ∈ tops, IsNode r line x.1 x.2 ∧ from_ x.2 = parent ∧ ∀ y ∈ sub, ∀ c, y.1 = x.1 ++ [c] → from_ y.2 = some x.2.col) ∧
        ∀ x ∈ sub, IsNode r line x.1 x.2 ∧ ∀ y ∈ sub, ∀ c, y.1 = x.1 ++ [c] → from_ y.2 = some x.2.col := by
  intro qs gs h
  induction h with
  | nil => intro _ _; exact ⟨[], [], rfl, rfl, rfl, List.nodup_nil, by simp, by simp, by simp⟩
  | @cons p g qs gs G GS ih =>
    intro hnd hb
    obtain ⟨hp, hnd'⟩ := List.nodup_cons.1 hnd
    obtain ⟨tops, sub, a1, a2, a3, a4, a5, a6, a7⟩ := ih hnd' (fun x hx => hb x (List.mem_cons_of_mem _ hx))
    obtain ⟨qn, c1, c2, c3, c4⟩ := lift_tree G (hb g (by simp))
    have hsub : ∀ y ∈ sub, ∃ p' ∈ qs, ∃ q', q' ≠ [] ∧ y.1 = p' :: q' := by
      intro y hy
      obtain ⟨p', hp', q', hq', e, _⟩ := (a5 y.1).1 (List.mem_map_of_mem hy)
      exact ⟨p', hp', q', hq', e⟩
    have hqn : ∀ y ∈ qn, ∃ q', q' ≠ [] ∧ y.1 = p :: q' := by
      intro y hy
      obtain ⟨q', hq', e, _⟩ := (c3 y.1).1 (List.mem_map_of_mem hy)
      exact ⟨q', hq', e⟩
    refine ⟨([p], node line parent g) :: tops, qn ++ sub, ?_, ?_, ?_, ?_, ?_, ?_, ?_⟩
    · simp [a1]
    · simp [c1, a2]
    · simp [a3]
    · rw [List.map_append, List.nodup_append]
      refine ⟨c2, a4, ?_⟩
      intro q hq q2 hq2 he
      subst he
      obtain ⟨y, hy, rfl⟩ := List.mem_map.1 hq
      obtain ⟨z, hz, hzy⟩ := List.mem_map.1 hq2
      obtain ⟨q', _, e⟩ := hqn y hy
      obtain ⟨p', hp', q'', _, e'⟩ := hsub z hz
      rw [hzy, e] at e'
      exact hp ((List.cons.inj e').1 ▸ hp')
    · intro q
      rw [List.map_append, List.mem_append, c3 q, a5 q]
      constructor
      · rintro (⟨q', h1, h2, h3⟩ | ⟨p', hp', h⟩)
        · exact ⟨p, by simp, q', h1, h2, h3⟩
        · exact ⟨p', List.mem_cons_of_mem _ hp', h⟩
      · rintro ⟨p', hp', h⟩
        rcases List.mem_cons.1 hp' with rfl | hp'
        · exact Or.inl h
        · exact Or.inr ⟨p', hp', h⟩
    · intro x hx
      rcases List.mem_cons.1 hx with rfl | hx
      · refine ⟨top_node G line parent, rfl, fun y hy c hc => ?_⟩
        rcases List.mem_append.1 hy with hy | hy
        · exact (c4 y hy).2.1 (by rw [hc]; rfl)
        · obtain ⟨p', hp', q', _, e⟩ := hsub y hy
          rw [e] at hc
          exact absurd ((List.cons.inj hc).1 ▸ hp') hp
      · obtain ⟨k1, k2, k3⟩ := a6 x hx
        refine ⟨k1, k2, fun y hy c hc => ?_⟩
        rcases List.mem_append.1 hy with hy | hy
        · obtain ⟨q', _, e⟩ := hqn y hy
          have hx1 : x.1 ∈ qs.map (fun p => [p]) := by rw [← a3]; exact List.mem_map_of_mem hx
          obtain ⟨p', hp', ep⟩ := List.mem_map.1 hx1
          rw [e, ← ep] at hc
          exact absurd ((List.cons.inj hc).1 ▸ hp') hp
        · exact k3 y hy c hc
    · intro x hx
      rcases List.mem_append.1 hx with hx | hx
      · obtain ⟨k1, _, k3⟩ := c4 x hx
        refine ⟨k1, fun y hy c hc => ?_⟩
        rcases List.mem_append.1 hy with hy | hy
        · exact k3 y hy c hc
        · obtain ⟨q', _, e⟩ := hqn x hx
          obtain ⟨p', hp', q'', _, e'⟩ := hsub y hy
          rw [e, e'] at hc
          exact absurd ((List.cons.inj hc).1 ▸ hp') hp
      · obtain ⟨k1, k3⟩ := a7 x hx
        refine ⟨k1, fun y hy c hc => ?_⟩
        rcases List.mem_append.1 hy with hy | hy
        · obtain ⟨q', _, e⟩ := hqn y hy
          obtain ⟨p', hp', q'', _, e'⟩ := hsub x hx
          rw [e, e'] at hc
          exact absurd ((List.cons.inj hc).1 ▸ hp') hp
        · exact k3 y hy c hc

theorem ready_below {r : List Item} (hr : Ready r) {p : Pic} {g : List Item} (G : Group r p g) : Ready (below g) := by
  have hg := hr.sublist G.sub
  refine ⟨?_, ?_, ?_⟩
  · unfold below
    rw [List.pairwise_map]
    exact hg.pos
  · unfold below
    rw [List.pairwise_map]
    refine hg.keys.imp_of_mem ?_
    intro a b ha hb hk
    have h1 := G.head a ha
    have h2 := G.head b hb
    cases ea : a.rest with
    | nil => rw [ea] at h1; cases h1
    | cons x xs =>
      cases eb : b.rest with
      | nil => rw [eb] at h2; cases h2
      | cons y ys =>
        rw [ea] at h1 hk
        rw [eb] at h2 hk
        simp only [List.head?_cons, Option.some.injEq] at h1 h2
        subst h1
        subst h2
        exact (lexLe_head textLe_order hk).2 rfl
  · intro i hi p' hp' j hj q' hq'
    obtain ⟨i', hi', _, _, e⟩ := below_mem hi
    obtain ⟨j', hj', _, _, e'⟩ := below_mem hj
    rw [e] at hp'
    rw [e'] at hq'
    exact hg.inj i' hi' p' (List.mem_of_mem_tail hp') j' hj' q' (List.mem_of_mem_tail hq')

theorem forall2_right {α β : Type} {R : α → β → Prop} {l : List α} {m : List β} (h : List.Forall₂ R l m) : ∀ b ∈ m, ∃ a, R a b := by
  induction h with
  | nil => simp
  | cons hab _ ih =>
    intro b hb
    rcases List.mem_cons.1 hb with rfl | hb
    · exact ⟨_, hab⟩
    · exact ih b hb

/-- The entries of several columns that all reach the line. -/
theorem tree_level {r : List Item} (hr : Ready r) (hne : ∀ i ∈ r, i.rest ≠ []) (line : ℕ) (parent : Option ℕ) (b : List Item → List Node)
    (hb : ∀ g, g ∈ r.splitBy joined → (∃ p, Group r p g) → IsTree (below g) (line + 1) (some (mid (first g) (last g))) (b g)) :
    IsTree r line parent ((r.splitBy joined).map (node line parent) ++ (r.splitBy joined).flatMap b) := by
  obtain ⟨qs, k1, k2, k3⟩ := groups hr hne
  have hG : ∀ g ∈ r.splitBy joined, ∃ p, Group r p g := by
    intro g hg
    exact forall2_right k2 g hg
  obtain ⟨tops, sub, a1, a2, a3, a4, a5, a6, a7⟩ := assemble line parent b qs _ k2 k1 (fun g hg => hb g hg (hG g hg))
  have htop : ∀ x ∈ tops, ∃ p ∈ qs, x.1 = [p] := by
    intro x hx
    have hx1 : x.1 ∈ qs.map (fun p => [p]) := by rw [← a3]; exact List.mem_map_of_mem hx
    obtain ⟨p, hp, e⟩ := List.mem_map.1 hx1
    exact ⟨p, hp, e.symm⟩
  have hsub : ∀ x ∈ sub, 2 ≤ x.1.length := by
    intro x hx
    obtain ⟨p, _, q', hq', e, _⟩ := (a5 x.1).1 (List.mem_map_of_mem hx)
    rw [e]
    have := List.length_pos_of_ne_nil hq'
    simp only [List.length_cons]
    omega
  refine ⟨tops ++ sub, ?_, ?_, ?_, ?_⟩
  · rw [List.map_append, a1, a2]
  · rw [List.map_append, List.nodup_append, a3]
    refine ⟨k1.map (fun a b hab => (List.cons.inj hab).1), a4, ?_⟩
    intro q hq q2 hq2 he
    subst he
    obtain ⟨p, _, rfl⟩ := List.mem_map.1 hq
    obtain ⟨x, hx, e⟩ := List.mem_map.1 hq2
    have := hsub x hx
    rw [e] at this
    simp at this
  · intro q
    rw [List.map_append, List.mem_append, a3, a5 q]
    constructor
    · rintro (h | ⟨p, hp, q', hq', rfl, h⟩)
      · obtain ⟨p, hp, rfl⟩ := List.mem_map.1 h
        obtain ⟨i, hi, he⟩ := (k3 p).1 hp
        exact ⟨by simp, i, hi, (cons_prefix _ _ _).2 ⟨he, by simp⟩⟩
      · exact ⟨by simp, h⟩
    · rintro ⟨hq, i, hi, hpre⟩
      cases q with
      | nil => exact absurd rfl hq
      | cons p q' =>
        have hp : p ∈ qs := (k3 p).2 ⟨i, hi, ((cons_prefix _ _ _).1 hpre).1⟩
        cases q' with
        | nil => exact Or.inl (List.mem_map.2 ⟨p, hp, rfl⟩)
        | cons c q'' => exact Or.inr ⟨p, hp, c :: q'', by simp, rfl, i, hi, hpre⟩
  · intro x hx
    rcases List.mem_append.1 hx with hx | hx
    · obtain ⟨b1, b2, b3⟩ := a6 x hx
      refine ⟨b1, fun _ => b2, fun y hy c hc => ?_⟩
      rcases List.mem_append.1 hy with hy | hy
      · obtain ⟨p, _, e⟩ := htop x hx
        obtain ⟨p', _, e'⟩ := htop y hy
        rw [e, e'] at hc
        cases hc
      · exact b3 y hy c hc
    · obtain ⟨b1, b3⟩ := a7 x hx
      have h2 := hsub x hx
      refine ⟨b1, fun h => by omega, fun y hy c hc => ?_⟩
      rcases List.mem_append.1 hy with hy | hy
      · obtain ⟨p', _, e'⟩ := htop y hy
        have := congrArg List.length hc
        rw [e', List.length_append, List.length_singleton, List.length_singleton] at this
        omega
      · exact b3 y hy c hc

/-- A column that ends above the line changes nothing below. -/
theorem tree_short {a : Item} {r : List Item} (hr : Ready (a :: r)) (ha : a.rest = []) {line : ℕ} {parent : Option ℕ} {ns : List Node}
    (h : IsTree r line parent ns) : IsTree (a :: r) line parent ns := by
  obtain ⟨qn, h1, h2, h3, h4⟩ := h
  have hno : ∀ q : List Pic, q ≠ [] → ¬ q <+: a.rest := by
    intro q hq hpre
    rw [ha] at hpre
    exact hq (List.prefix_nil.1 hpre)
  refine ⟨qn, h1, h2, ?_, ?_⟩
  · intro q
    rw [h3 q]
    constructor
    · rintro ⟨hq, i, hi, hpre⟩
      exact ⟨hq, i, List.mem_cons_of_mem _ hi, hpre⟩
    · rintro ⟨hq, i, hi, hpre⟩
      rcases List.mem_cons.1 hi with rfl | hi
      · exact absurd hpre (hno q hq)
      · exact ⟨hq, i, hi, hpre⟩
  · intro x hx
    obtain ⟨k1, k2, k3⟩ := h4 x hx
    have hq := ((h3 x.1).1 (List.mem_map_of_mem hx)).1
    refine ⟨⟨k1.line, k1.pic, k1.col, ?_, ?_, ?_, ?_⟩, k2, k3⟩
    · obtain ⟨i, hi, e⟩ := k1.lo
      exact ⟨i, List.mem_cons_of_mem _ hi, e⟩
    · obtain ⟨i, hi, e⟩ := k1.hi
      exact ⟨i, List.mem_cons_of_mem _ hi, e⟩
    · intro i hi
      rcases List.mem_cons.1 hi with rfl | hi
      · constructor
        · intro hpre; exact absurd hpre (hno _ hq)
        · rintro ⟨hl, _⟩
          obtain ⟨j, hj, e, _⟩ := k1.lo
          have := List.rel_of_pairwise_cons hr.pos hj
          omega
      · exact k1.range i hi
    · rw [k1.w, List.filter_cons_of_neg (by simpa using hno _ hq)]

theorem build_nil : ∀ n line parent, build n [] line parent = []
  | 0, _, _ => rfl
  | _ + 1, _, _ => rfl

theorem build_tree : ∀ (n : ℕ) (r : List Item) (line : ℕ) (parent : Option ℕ), size r ≤ n → Ready r → (line = 0 → parent = none) →
    IsTree r line parent (build n r line parent)
  | 0, r, line, parent, hs, _, _ => by
    cases r with
    | nil => exact tree_nil _ _
    | cons a r => simp [size] at hs
  | n + 1, [], line, parent, _, _, _ => tree_nil _ _
  | n + 1, [i], line, parent, _, _, hp => tree_alone i line parent hp
  | n + 1, a :: b :: r, line, parent, hs, hr, hp => by
    by_cases hall : (a :: b :: r).all (fun i => decide (i.rest ≠ [])) = true
    · have hne : ∀ i ∈ a :: b :: r, i.rest ≠ [] := by
        intro i hi
        simpa using List.all_eq_true.1 hall i hi
      rw [build, if_pos hall]
      · apply tree_level hr hne line parent (fun g => build n (below g) (line + 1) (some (mid (first g) (last g))))
        rintro g hg ⟨p, G⟩
        refine build_tree n (below g) (line + 1) _ ?_ (ready_below hr G) (fun h => by omega)
        have h1 := size_below (g := g) (fun i hi => hne i (G.sub.subset hi))
        have h2 := List.length_pos_of_ne_nil G.ne
        have h3 := size_sublist G.sub
        omega
      · intro h; cases h
      · intro i h; cases h
    · have ha : a.rest = [] := by
        by_contra hc
        apply hall
        rw [List.all_eq_true]
        intro i hi
        rw [decide_eq_true_eq]
        rcases List.mem_cons.1 hi with rfl | hi
        · exact hc
        · intro he
          have hk := List.rel_of_pairwise_cons hr.keys hi
          rw [he] at hk
          cases hra : a.rest with
          | nil => exact hc hra
          | cons x xs => rw [hra] at hk; simp [keysLe, lexLe] at hk
      rw [build, if_neg hall]
      · have e1 : (a :: b :: r).takeWhile (fun i => decide (i.rest ≠ [])) = [] := by
          rw [List.takeWhile_cons_of_neg (by simp [ha])]
        have e2 : ((a :: b :: r).dropWhile fun i => decide (i.rest ≠ [])).drop 1 = b :: r := by
          rw [List.dropWhile_cons_of_neg (by simp [ha])]
          rfl
        rw [e1, e2, build_nil, List.nil_append]
        refine tree_short hr ha (build_tree n (b :: r) line parent ?_ (hr.sublist (List.sublist_cons_self _ _)) hp)
        simp only [size, List.map_cons, List.sum_cons] at hs ⊢
        omega
      · intro h; cases h
      · intro i h; cases h

end Verif.VhTree
