import Verif.Chunk
import Mathlib.Algebra.Order.Ring.Rat
import Mathlib.Tactic.NormNum
/-!
Model of exporting a selection of binaries: `/repo/posydon/popsyn/synthetic_population.py`, `Population.export_selection`
(l.1163-1385).

Simplifications: a table is its list of rows, the empty table is the same as none; the contents of one-line rows are a
metallicity entry and the rest; the masses per metallicity have one mass column; the file left behind by an export that
raises is not represented, nor are the initial parameters written at the end.
-/
namespace Verif.Export
open Verif.Table Verif.Chunk

inductive Err | value | key | fileExists
  deriving DecidableEq, Repr

/-- A one-line row: metallicity, if the table has that column, and the rest. -/
abbrev One (β : Type) := Option ℚ × β

/-- A row of the mass table: metallicity in solar units, simulated mass, number of systems. -/
abbrev MassRow := ℚ × ℚ × ℕ

/-- The tables of a population file. -/
structure Store (α β γ : Type) where
  one : Rows (One β)
  hist : Rows α
  chan : Rows γ
  lens : Rows ℕ
  mass : Option (List MassRow)

def Store.empty {α β γ : Type} : Store α β γ := ⟨[], [], [], [], none⟩

/-- The population object exported from. -/
structure Pop (α β γ : Type) where
  one : Rows (One β)
  hist : Rows α
  chan : Option (Rows γ)
  lens : Rows ℕ
  mass : List MassRow
  /-- `"metallicity" in self.oneline.columns` -/
  hasMet : Bool

/-- `Zsun`. -/
def Zsun : ℚ := 142 / 10000

/-- `last_index_in_file`, l.1247-1252. -/
def lastIndex {α β γ : Type} (s : Store α β γ) : ℤ :=
  if s.one ≠ [] then (s.one.map Prod.fst).foldl max ((s.one.map Prod.fst).headD 0)
  else if s.hist ≠ [] then (s.hist.map Prod.fst).foldl max ((s.hist.map Prod.fst).headD 0)
  else -1

/-- The first new label, l.1269-1283. -/
def firstNew (last : ℤ) : ℤ := if last = -1 then 0 else last + 1

/-- The dictionary `reindex`: pairs of old and new labels; a repeated old label gets the last one. -/
def pairsFrom (start : ℤ) : List ℤ → List (ℤ × ℤ)
  | [] => []
  | i :: sel => (i, start) :: pairsFrom (start + 1) sel

/-- `rename(index=reindex)`: labels not in the dictionary stay. -/
def newLabel (start : ℤ) (sel : List ℤ) (i : ℤ) : ℤ := ((pairsFrom start sel).reverse.lookup i).getD i

def relabel {δ : Type} (start : ℤ) (sel : List ℤ) (rows : Rows δ) : Rows δ := rows.map fun r => (newLabel start sel r.1, r.2)

/-- `table[labels]`: rows with these labels in file order, `ValueError` if there are none (see `Table.selectWhere`). -/
def byLabels {δ : Type} (rows : Rows δ) (l : List ℤ) : Except Err (Rows δ) :=
  let out := rows.filter fun r => decide (r.1 ∈ l)
  if out = [] then .error .value else .ok out

/-- `table.loc[labels]`: rows in the order of the labels, `KeyError` if one is missing. -/
def byLoc {δ : Type} (rows : Rows δ) (l : List ℤ) : Except Err (Rows δ) :=
  if l.all fun i => decide (i ∈ rows.map Prod.fst) then .ok (l.flatMap fun i => rows.filter fun r => decide (r.1 = i))
  else .error .key

/-- A loop over pieces of the selection, appending what is read. -/
def overPieces {δ : Type} (f : List ℤ → Except Err (Rows δ)) : List (List ℤ) → Except Err (Rows δ)
  | [] => .ok []
  | c :: cs =>
    match f c with
    | .error e => .error e
    | .ok a =>
      match overPieces f cs with
      | .error e => .error e
      | .ok b => .ok (a ++ b)

/-- `groupby(index).sum()` of the joined mass tables, l.1375-1376. -/
def groupSum (t : List MassRow) : List MassRow :=
  ((t.map Prod.fst).dedup.insertionSort (· ≤ ·)).map fun z =>
    (z, ((t.filter fun r => decide (r.1 = z)).map fun r => r.2.1).sum, ((t.filter fun r => decide (r.1 = z)).map fun r => r.2.2).sum)

/-- l.1305-1308: a missing metallicity becomes the first metallicity of the population in absolute units. -/
def fillMet {α β γ : Type} (P : Pop α β γ) (rows : Rows (One β)) : Rows (One β) :=
  if P.hasMet then rows else rows.map fun r => (r.1, (some ((P.mass.map Prod.fst).headD 0 * Zsun), r.2.2))

/-- l.1341-1355: the formation channels, if there are any. -/
def chanPieces {α β γ : Type} (P : Pop α β γ) (L : List (List ℤ)) : Except Err (Rows γ) :=
  match P.chan with
  | none => .ok []
  | some c => overPieces (byLoc c) L

/-- `export_selection`.  `old` is the target file if it exists; the result is the new contents of the target and the population
object afterwards: `self_mass` is the object's own table (l.1373-1374, 1380-1381). -/
def exportSelection {α β γ : Type} (P : Pop α β γ) (nameOk : Bool) (old : Option (Store α β γ)) (overwrite append : Bool)
    (cs hcs : ℕ) (sel : List ℤ) : Except Err (Store α β γ × Pop α β γ) :=
  if !nameOk then .error .value
  else if append && overwrite then .error .value
  else if old.isSome && !overwrite && !append then .error .fileExists
  else
    let s : Store α β γ := if append then old.getD Store.empty else Store.empty
    let start := firstNew (lastIndex s)
    if !P.hasMet && decide (P.mass.length > 1) then .error .value
    else
      match overPieces (byLabels P.one) (chunks cs sel), overPieces (byLabels P.hist) (chunks hcs sel),
          chanPieces P (chunks cs sel),
          overPieces (byLoc P.lens) (chunks cs sel) with
      | .error e, _, _, _ => .error e
      | .ok _, .error e, _, _ => .error e
      | .ok _, .ok _, .error e, _ => .error e
      | .ok _, .ok _, .ok _, .error e => .error e
      | .ok o, .ok h, .ok c, .ok l =>
        let mine := P.mass.map fun r => (r.1, r.2.1, sel.length)
        .ok (⟨s.one ++ relabel start sel (fillMet P o), s.hist ++ relabel start sel h, s.chan ++ relabel start sel c,
          s.lens ++ relabel start sel l, some (match s.mass with
            | some t => groupSum (t ++ mine)
            | none => mine)⟩, { P with mass := mine })

/-! ### Lemmas -/

theorem mem_pairsFrom (sel : List ℤ) : ∀ (start : ℤ) (x : ℤ × ℤ), x ∈ pairsFrom start sel ↔
    ∃ (k : ℕ) (hk : k < sel.length), x = (sel[k], start + k) := by
  induction sel with
  | nil => intro start x; simp [pairsFrom]
  | cons i sel ih =>
    intro start x
    simp only [pairsFrom, List.mem_cons, ih]
    constructor
    · rintro (rfl | ⟨k, hk, rfl⟩)
      · exact ⟨0, by simp, by simp⟩
      · exact ⟨k + 1, by simpa using hk, by simp; ring⟩
    · rintro ⟨k, hk, rfl⟩
      cases k with
      | zero => left; simp
      | succ k => right; exact ⟨k, by simpa using hk, by simp; ring⟩

/-- Labels of a selection without repetitions are numbered consecutively. -/
theorem newLabel_getElem (start : ℤ) (sel : List ℤ) (hnd : sel.Nodup) (k : ℕ) (hk : k < sel.length) :
    newLabel start sel sel[k] = start + k := by
  unfold newLabel
  cases h : (pairsFrom start sel).reverse.lookup sel[k] with
  | none =>
    have := List.lookup_eq_none_iff.1 h (sel[k], start + k) (List.mem_reverse.2 ((mem_pairsFrom sel start _).2 ⟨k, hk, rfl⟩))
    simp at this
  | some v =>
    obtain ⟨l1, l2, he, -⟩ := List.lookup_eq_some_iff.1 h
    have hm : (sel[k], v) ∈ pairsFrom start sel := by
      rw [← List.mem_reverse, he]; simp
    obtain ⟨j, hj, hje⟩ := (mem_pairsFrom sel start _).1 hm
    simp only [Prod.mk.injEq] at hje
    have hkj : k = j := (List.Nodup.getElem_inj_iff hnd).1 hje.1
    subst hkj
    rw [hje.2]; rfl

end Verif.Export
