import Verif.PipeRun
import Verif.GridJoinProps
import Mathlib.Tactic.Linarith
import Mathlib.Tactic.Positivity

/-!
# Properties of the tasks of the pipeline
-/

namespace Verif.PipeRun

open Verif.Frame (isIn split)

variable {G X : Type}

/-! ### The row of a task -/

/-- A task whose table is missing raises `FileNotFoundError`, one whose index is beyond the table `KeyError`;
otherwise the row is the one with the index of the task. -/
theorem C124_row {R : Type} (csv : Option (List R)) (i : ℕ) :
    (csv = none → rowOf csv i = .error .file) ∧
    (∀ rs, csv = some rs → rs.length ≤ i → rowOf csv i = .error .key) ∧
    (∀ r, rowOf csv i = .ok r ↔ ∃ rs, csv = some rs ∧ rs[i]? = some r) := by
  refine ⟨?_, ?_, ?_⟩
  · rintro rfl; rfl
  · rintro rs rfl h
    simp [rowOf, List.getElem?_eq_none h]
  · intro r
    cases csv with
    | none => simp [rowOf]
    | some rs =>
      cases h : rs[i]? with
      | none => simp [rowOf, h]
      | some x => simp [rowOf, h]

/-! ### Slices -/

/-- The settings of the down sampling: none at all for `ORIGINAL`, the errors 0.1 and
the interval -0.005 for `LITE`; every other compression raises `ValueError`. -/
theorem C124_sampling (p : Name) :
    (sampling (chars! "ORIGINAL") = .ok ⟨none, none, none, false⟩) ∧
    (sampling (chars! "LITE") = .ok ⟨some (1/10), some (1/10), some (-5/1000), true⟩) ∧
    (p ≠ (chars! "ORIGINAL") → p ≠ (chars! "LITE") → sampling p = .error .value) := by
  refine ⟨rfl, rfl, ?_⟩
  intro h1 h2
  rw [sampling, if_neg h1, if_neg h2]

/-- What follows the first underscore of a compression does not change the down sampling: `LITE_RLO` is sampled as `LITE`. -/
theorem C124_pure_compression (p rest : Name) (h : '_' ∉ p) :
    (split (chars! "_") p).headD [] = p ∧ (split (chars! "_") (p ++ '_' :: rest)).headD [] = p := by
  constructor
  · rw [show (chars! "_") = ['_'] from rfl, Verif.GridJoin.split_one '_' p h]; rfl
  · have h1 := Verif.GridJoin.walk_val '_' [] p [] ('_' :: rest) h
    have h2 := Verif.GridJoin.walk_sep '_' [] (p.reverse ++ []) rest
    show (Verif.Frame.splitGo ['_'] 0 [] (p ++ '_' :: rest)).headD [] = p
    rw [h1]
    rw [show ('_' :: rest) = ['_'] ++ rest from rfl, h2]
    simp

/-- What the user relies on when a slice is made: it is read from the directory of the row and written to the file
named after the directory and the compression; it starts at the Roche-lobe overflow just for the compressions that
say so; the end of the run is cut just when the row asks for it and the grid has a hydrogen-rich star; and an
existing file is not touched without `overwrite`, whatever the verbosity. -/
theorem C124_slice (newName : Name → Name → Name) (d : Disk G) (verbose overwrite : Bool)
    (csv : Option (List (Row × Option Bool))) (i : ℕ) (c : Create) :
    slice newName d verbose overwrite csv i = .ok c ↔
    ∃ rs r stop comp type s, csv = some rs ∧ rs[i]? = some (r, stop) ∧
      r (chars! "path_to_grid") = some c.source ∧ d.isDir c.source = true ∧
      r (chars! "compression") = some comp ∧ r (chars! "grid_type") = some type ∧
      sampling ((split (chars! "_") comp).headD []) = .ok s ∧
      (overwrite = true ∨ d.file (newName c.source comp) = none) ∧
      c = ⟨c.source, newName c.source comp, overwrite, s, isIn (chars! "RLO") comp,
            stop == some true && isIn (chars! "HMS") type⟩ := by
  constructor
  · intro h
    unfold slice at h
    cases h0 : rowOf csv i with
    | error e => rw [h0] at h; cases h
    | ok rr =>
    obtain ⟨r, stop⟩ := rr
    obtain ⟨rs, hr, hi⟩ := ((C124_row csv i).2.2 (r, stop)).mp h0
    rw [h0] at h; dsimp only at h
    cases h1 : r (chars! "path_to_grid") with
    | none => simp only [need, h1] at h; cases h
    | some path =>
    simp only [need, h1] at h
    cases hd : d.isDir path with
    | false => rw [hd] at h; simp at h
    | true =>
    rw [hd] at h
    cases h2 : r (chars! "compression") with
    | none => simp [h2] at h
    | some comp =>
    cases h3 : r (chars! "grid_type") with
    | none => simp [h2, h3] at h
    | some type =>
    simp only [h2, h3, Bool.not_true, Bool.false_eq_true, if_false] at h
    cases h4 : sampling ((split (chars! "_") comp).headD []) with
    | error e => rw [h4] at h; cases h
    | ok s =>
    rw [h4] at h; dsimp only at h
    cases overwrite with
    | false =>
      cases h5 : d.file (newName path comp) with
      | some g => cases verbose <;> simp [h5] at h
      | none =>
        simp only [h5, Option.isSome_none, Bool.and_false, Bool.false_and, Bool.false_eq_true, if_false] at h
        obtain rfl := (Except.ok.inj h).symm
        refine ⟨rs, r, stop, comp, type, s, hr, hi, h1, hd, h2, h3, h4, .inr h5, ?_⟩
        rcases stop with _ | _ | _ <;> simp
    | true =>
      simp only [Bool.not_true, Bool.and_false, Bool.false_and, Bool.false_eq_true, if_false] at h
      obtain rfl := (Except.ok.inj h).symm
      refine ⟨rs, r, stop, comp, type, s, hr, hi, h1, hd, h2, h3, h4, .inl rfl, ?_⟩
      rcases stop with _ | _ | _ <;> simp
  · rintro ⟨rs, r, stop, comp, type, s, rfl, hi, h1, hd, h2, h3, h4, h5, hc⟩
    have h0 : rowOf (some rs) i = .ok (r, stop) := ((C124_row _ i).2.2 _).mpr ⟨rs, rfl, hi⟩
    rw [hc]
    unfold slice
    rw [h0]
    simp only [need, h1, h2, h3, hd, h4]
    rcases h5 with rfl | h5
    · rcases stop with _ | _ | _ <;> simp
    · rcases stop with _ | _ | _ <;> cases overwrite <;> simp [h5]

example : slice (G := Unit) (fun p c => p ++ (chars! "/") ++ c) ⟨fun _ => none, fun p => p = (chars! "g")⟩ true false
    (some [(fun k => if k = (chars! "path_to_grid") then some (chars! "g")
      else if k = (chars! "compression") then some (chars! "LITE_RLO")
      else if k = (chars! "grid_type") then some (chars! "CO-HMS_RLO") else none, some true)]) 0 =
    .ok ⟨(chars! "g"), (chars! "g/LITE_RLO"), false, ⟨some (1/10), some (1/10), some (-5/1000), true⟩, true, true⟩ := by
  rw [C124_slice]
  refine ⟨_, _, _, (chars! "LITE_RLO"), (chars! "CO-HMS_RLO"), _, rfl, rfl, rfl, ?_, rfl, rfl, rfl, .inr rfl, rfl⟩
  rfl

/-! ### Joining -/

/-- The new grid of a task is the column with its index; the grids joined are the paths of that column in their order, without
the empty cells. -/
theorem C124_combine (cs : List (Name × List (Option Name))) (i : ℕ) :
    (cs.length ≤ i → combine (some cs) i = .error .key) ∧ combine none i = .error .file ∧
    (∀ ns target, combine (some cs) i = .ok (ns, target) ↔ ∃ cells, cs[i]? = some (target, cells) ∧ ns.map some = cells.filter (·.isSome)) := by
  refine ⟨fun h => by simp [combine, h], rfl, ?_⟩
  intro ns target
  have key : ∀ cells : List (Option Name), (cells.filterMap (fun x => x)).map some = cells.filter (·.isSome) := by
    intro cells
    induction cells with
    | nil => rfl
    | cons a l ih => cases a <;> simp [ih]
  by_cases h : cs.length ≤ i
  · simp [combine, h]
  · obtain ⟨x, hx⟩ : ∃ x, cs[i]? = some x := ⟨cs[i]'(by omega), List.getElem?_eq_getElem _⟩
    obtain ⟨t, cells⟩ := x
    simp only [combine, h, if_false, hx]
    constructor
    · intro he
      obtain ⟨rfl, rfl⟩ := Prod.mk.inj (Except.ok.inj he)
      exact ⟨cells, rfl, key cells⟩
    · rintro ⟨cells', he, hn⟩
      obtain ⟨rfl, rfl⟩ := Prod.mk.inj (Option.some.inj he)
      rw [← key] at hn
      rw [← List.map_injective_iff.mpr (Option.some_injective _) hn]

example : combine (some [((chars! "new.h5"), [some (chars! "a.h5"), none, some (chars! "b.h5")])]) 0 =
    .ok ([(chars! "a.h5"), (chars! "b.h5")], (chars! "new.h5")) := rfl

/-! ### Further values -/

/-- The row of a task of `calculate_extra_values` is complete. -/
structure ExtraRow (d : Disk G) (csv : Option (List Row)) (i : ℕ) (r : Row) (path type out orig : Name) (g o : G) : Prop where
  hRow : rowOf csv i = .ok r
  hPath : r (chars! "path_to_grid") = some path
  hGrid : d.file path = some g
  hType : r (chars! "grid_type") = some type
  hOut : r (chars! "path_to_processed_grid") = some out
  hOrig : r (chars! "path_to_grid_ORIGINAL") = some orig
  hFull : d.file orig = some o

/-- The processed grid is the grid of the row with what the post-processing of the grid that was not sampled down gives; the second
star is taken as a compact object just for grids with `CO` in their type; no other file changes. -/
theorem C124_extra {post : G → Bool → Except Err X} {add : G → X → Except Err G} {d : Disk G} {csv : Option (List Row)} {i : ℕ}
    {r : Row} {path type out orig : Name} {g o g' : G} {x : X} (h : ExtraRow d csv i r path type out orig g o) (hne : out ≠ path)
    (hp : post o (isIn (chars! "CO") type) = .ok x) (ha : add g x = .ok g') :
    (extra post add d csv i).2 = .ok () ∧ (extra post add d csv i).1.file out = some g' ∧
    ∀ p, p ≠ out → (extra post add d csv i).1.file p = d.file p := by
  have hq : (if (d.file out).isSome then d.remove out else d).file path = some g := by
    split_ifs
    · simp [Disk.remove, hne.symm, h.hGrid]
    · exact h.hGrid
  unfold extra
  simp only [h.hRow, needFile, need, h.hPath, h.hGrid, h.hType, h.hOut, h.hOrig, h.hFull, hp, hq, ha]
  refine ⟨trivial, by simp [Disk.write], ?_⟩
  intro p hp'
  simp only [Disk.write, hp', if_false]
  split_ifs <;> simp [Disk.remove, hp']

/-- Whatever happens, no file but the processed grid of the row changes. -/
theorem C124_extra_others (post : G → Bool → Except Err X) (add : G → X → Except Err G) (d : Disk G) (csv : Option (List Row)) (i : ℕ)
    (p : Name) (h : ∀ r, rowOf csv i = .ok r → r (chars! "path_to_processed_grid") ≠ some p) :
    (extra post add d csv i).1.file p = d.file p := by
  unfold extra
  cases h0 : rowOf csv i with
  | error e => rfl
  | ok r =>
  have hr := h r h0
  dsimp only
  cases h1 : needFile d r (chars! "path_to_grid") with
  | error e => rfl
  | ok pg =>
  dsimp only
  cases h2 : need r (chars! "grid_type") with
  | error e => rfl
  | ok type =>
  dsimp only
  cases h3 : r (chars! "path_to_processed_grid") with
  | none => simp [need, h3]
  | some out =>
  have hpo : p ≠ out := fun e => hr (by rw [h3, e])
  simp only [need, h3]
  cases h4 : needFile d r (chars! "path_to_grid_ORIGINAL") with
  | error e => rfl
  | ok po =>
  dsimp only
  cases h5 : post po.2 (isIn (chars! "CO") type) with
  | error e => rfl
  | ok x =>
  dsimp only
  have hd1 : (if (d.file out).isSome then d.remove out else d).file p = d.file p := by
    split_ifs
    · simp [Disk.remove, hpo]
    · rfl
  generalize (if (d.file out).isSome then d.remove out else d) = d1 at hd1
  cases h6 : d1.file pg.1 with
  | none => exact hd1
  | some g =>
  dsimp only
  cases h7 : add g x with
  | error e => simpa [Disk.write, hpo] using hd1
  | ok g' => simpa [Disk.write, hpo] using hd1

/-- When the post-processing fails nothing on the disk has changed. -/
theorem C124_extra_post_fails {post : G → Bool → Except Err X} (add : G → X → Except Err G) {d : Disk G} {csv : Option (List Row)} {i : ℕ}
    {r : Row} {path type out orig : Name} {g o : G} {e : Err} (h : ExtraRow d csv i r path type out orig g o)
    (hp : post o (isIn (chars! "CO") type) = .error e) : extra post add d csv i = (d, .error e) := by
  unfold extra
  simp only [h.hRow, needFile, need, h.hPath, h.hGrid, h.hType, h.hOut, h.hOrig, h.hFull, hp]

/-- **Violated**: that a task never loses its input.  With the same path for the grid and for the processed grid the file is removed
before it is copied: the task raises `FileNotFoundError` and the grid is gone. -/
theorem C124_input_kept_violated {post : G → Bool → Except Err X} (add : G → X → Except Err G) {d : Disk G} {csv : Option (List Row)} {i : ℕ}
    {r : Row} {path type orig : Name} {g o : G} {x : X} (h : ExtraRow d csv i r path type path orig g o)
    (hp : post o (isIn (chars! "CO") type) = .ok x) :
    (extra post add d csv i).2 = .error .file ∧ (extra post add d csv i).1.file path = none := by
  unfold extra
  simp only [h.hRow, needFile, need, h.hPath, h.hGrid, h.hType, h.hOut, h.hOrig, h.hFull, hp]
  simp [Disk.remove]

/-- **Violated**: that a processed grid on the disk has the further values.  When adding them fails, the plain copy of the grid stays under
the name of the processed grid. -/
theorem C124_no_half_result_violated {post : G → Bool → Except Err X} {add : G → X → Except Err G} {d : Disk G} {csv : Option (List Row)} {i : ℕ}
    {r : Row} {path type out orig : Name} {g o : G} {x : X} {e : Err} (h : ExtraRow d csv i r path type out orig g o) (hne : out ≠ path)
    (hp : post o (isIn (chars! "CO") type) = .ok x) (ha : add g x = .error e) :
    (extra post add d csv i).2 = .error e ∧ (extra post add d csv i).1.file out = some g := by
  have hq : (if (d.file out).isSome then d.remove out else d).file path = some g := by
    split_ifs
    · simp [Disk.remove, hne.symm, h.hGrid]
    · exact h.hGrid
  unfold extra
  simp only [h.hRow, needFile, need, h.hPath, h.hGrid, h.hType, h.hOut, h.hOrig, h.hFull, hp, hq, ha]
  exact ⟨trivial, by simp [Disk.write]⟩

/-- A row and a disk for the examples. -/
def exampleRow (out : Name) : Row := fun k =>
  if k = (chars! "path_to_grid") then some (chars! "LITE.h5")
  else if k = (chars! "path_to_grid_ORIGINAL") then some (chars! "ORIGINAL.h5")
  else if k = (chars! "path_to_processed_grid") then some out
  else if k = (chars! "export_path") then some out
  else if k = (chars! "path_to_IF_interpolator") then some (chars! "ORIGINAL.h5")
  else if k = (chars! "path_to_profile_interpolator") then some out
  else if k = (chars! "grid_type") then some (chars! "CO-HMS_RLO") else none

def exampleDisk : Disk ℕ where
  file p := if p = (chars! "LITE.h5") then some 1 else if p = (chars! "ORIGINAL.h5") then some 10 else none
  isDir _ := true

example (out : Name) : ExtraRow exampleDisk (some [exampleRow out]) 0 (exampleRow out) (chars! "LITE.h5") (chars! "CO-HMS_RLO") out
    (chars! "ORIGINAL.h5") 1 10 := ⟨rfl, rfl, rfl, rfl, rfl, rfl, rfl⟩

/-! ### Export -/

/-- The exported file is a copy of the grid of the row and no other file changes; when the task raises, nothing at all changes. -/
theorem C124_export (parent : Name → Name) (d : Disk G) (csv : Option (List Row)) (i : ℕ) :
    ((exportGrid parent d csv i).2 = .ok () → ∃ r path out g, rowOf csv i = .ok r ∧ r (chars! "path_to_grid") = some path ∧
        r (chars! "export_path") = some out ∧ d.file path = some g ∧ (exportGrid parent d csv i).1.file out = some g ∧
        ∀ p, p ≠ out → (exportGrid parent d csv i).1.file p = d.file p) ∧
    (∀ e, (exportGrid parent d csv i).2 = .error e → (exportGrid parent d csv i).1 = d) := by
  unfold exportGrid
  cases h0 : rowOf csv i with
  | error e => exact ⟨fun h => by simp at h, fun _ _ => rfl⟩
  | ok r =>
  dsimp only
  cases h1 : r (chars! "path_to_grid") with
  | none => simp [needFile, h1]
  | some path =>
  cases h2 : d.file path with
  | none => simp [needFile, h1, h2]
  | some g =>
  simp only [needFile, h1, h2]
  cases h3 : r (chars! "export_path") with
  | none => simp [need, h3]
  | some out =>
  simp only [need, h3]
  by_cases h4 : path = out
  · simp [h4]
  · rw [if_neg h4]
    cases h5 : d.isDir (parent out) with
    | false => simp
    | true =>
      simp only [Bool.not_true, Bool.false_eq_true, if_false]
      refine ⟨fun _ => ⟨r, path, out, g, rfl, h1, h3, h2, by simp [Disk.write], ?_⟩, fun e h => by simp at h⟩
      intro p hp
      simp [Disk.write, hp]

/-- The export does succeed when the row is complete, the grid exists, the directory of the target exists and the paths differ. -/
theorem C124_export_works {parent : Name → Name} {d : Disk G} {csv : Option (List Row)} {i : ℕ} {r : Row} {path out : Name} {g : G}
    (h0 : rowOf csv i = .ok r) (h1 : r (chars! "path_to_grid") = some path) (h2 : r (chars! "export_path") = some out)
    (h3 : d.file path = some g) (h4 : d.isDir (parent out) = true) (h5 : path ≠ out) :
    exportGrid parent d csv i = (d.write out g, .ok ()) := by
  simp [exportGrid, h0, needFile, need, h1, h2, h3, h4, h5]

example : exportGrid (fun _ => []) exampleDisk (some [exampleRow (chars! "out.h5")]) 0 = (exampleDisk.write (chars! "out.h5") 1, .ok ()) :=
  C124_export_works (r := exampleRow (chars! "out.h5")) rfl rfl rfl rfl rfl (by decide)

/-! ### Profiles -/

/-- The row of a task of `train_profile_interpolators` is complete. -/
structure ProfRow (d : Disk G) (csv : Option (List (Row × Option (Option (List Name))))) (i : ℕ) (path type ifp out : Name)
    (ns : List Name) (g m : G) : Prop where
  row : ∃ r, rowOf csv i = .ok (r, some (some ns)) ∧ r (chars! "path_to_grid") = some path ∧ r (chars! "grid_type") = some type ∧
    r (chars! "path_to_IF_interpolator") = some ifp ∧ r (chars! "path_to_profile_interpolator") = some out
  grid : d.file path = some g
  model : d.file ifp = some m
  apart : ifp ≠ out ++ (chars! ".tmp")

/-- The interpolator of profiles is trained with the profiles asked for, of both stars unless the second one is a compact object, and with the
interpolator of final values of the row; it is saved under the path of the row. -/
theorem C124_profiles {parent : Name → Name} {compile : G → Bool → List Name → Except Err G} {train : G → G → Except Err G} {d : Disk G}
    {csv : Option (List (Row × Option (Option (List Name))))} {i : ℕ} {path type ifp out : Name} {ns : List Name} {g m ps t : G}
    (h : ProfRow d csv i path type ifp out ns g m) (hc : compile g (!isIn (chars! "CO") type) ns = .ok ps) (ht : train ps m = .ok t) :
    (profiles parent compile train d csv i).2 = .ok () ∧ (profiles parent compile train d csv i).1.file out = some t ∧
    ∀ p, p ≠ out → p ≠ out ++ (chars! ".tmp") → (profiles parent compile train d csv i).1.file p = d.file p := by
  obtain ⟨r, h0, h1, h2, h3, h4⟩ := h.row
  unfold profiles
  have hm : ((⟨d.file, fun p => p = parent out || d.isDir p⟩ : Disk G).write (out ++ (chars! ".tmp")) ps).file ifp = some m := by
    simp [Disk.write, h.apart, h.model]
  simp only [h0, needFile, need, h1, h2, h3, h4, h.grid, h.model, hc, hm, ht]
  refine ⟨trivial, by simp [Disk.write], ?_⟩
  intro p hp1 hp2
  simp [Disk.write, hp1, hp2]

/-- **Violated**: that the training leaves only the interpolator.  The file with the compiled profiles stays beside it, also when the training
fails. -/
theorem C124_no_temporary_violated {parent : Name → Name} {compile : G → Bool → List Name → Except Err G} (train : G → G → Except Err G)
    {d : Disk G} {csv : Option (List (Row × Option (Option (List Name))))} {i : ℕ} {path type ifp out : Name} {ns : List Name} {g m ps : G}
    (h : ProfRow d csv i path type ifp out ns g m) (hc : compile g (!isIn (chars! "CO") type) ns = .ok ps) :
    (profiles parent compile train d csv i).1.file (out ++ (chars! ".tmp")) = some ps := by
  obtain ⟨r, h0, h1, h2, h3, h4⟩ := h.row
  unfold profiles
  have hm : ((⟨d.file, fun p => p = parent out || d.isDir p⟩ : Disk G).write (out ++ (chars! ".tmp")) ps).file ifp = some m := by
    simp [Disk.write, h.apart, h.model]
  simp only [h0, needFile, need, h1, h2, h3, h4, h.grid, h.model, hc, hm]
  cases train ps m with
  | error e => simp [Disk.write]
  | ok t => simp [Disk.write]

/-- Names of profiles that are missing raise `KeyError`, names that are no list raise `TypeError`, before anything is written. -/
theorem C124_profile_names {parent : Name → Name} {compile : G → Bool → List Name → Except Err G} {train : G → G → Except Err G} {d : Disk G}
    {csv : Option (List (Row × Option (Option (List Name))))} {i : ℕ} {r : Row} {ns : Option (Option (List Name))} {path type : Name} {g : G}
    (h0 : rowOf csv i = .ok (r, ns)) (h1 : r (chars! "path_to_grid") = some path) (h2 : d.file path = some g)
    (h3 : r (chars! "grid_type") = some type) :
    (ns = none → profiles parent compile train d csv i = (d, .error .key)) ∧
    (ns = some none → profiles parent compile train d csv i = (d, .error .type)) := by
  constructor <;> rintro rfl <;> simp [profiles, h0, needFile, need, h1, h2, h3]

example : ProfRow exampleDisk (some [(exampleRow (chars! "out.pkl"), some (some [(chars! "radius")]))]) 0 (chars! "LITE.h5") (chars! "CO-HMS_RLO")
    (chars! "ORIGINAL.h5") (chars! "out.pkl") [(chars! "radius")] 1 10 :=
  ⟨⟨exampleRow (chars! "out.pkl"), rfl, rfl, rfl, rfl, rfl⟩, rfl, rfl, by decide⟩

/-! ### Checks -/

/-- The numbers of a `Counter`: each value of the list once, with the number of times it is there; together they are all entries. -/
theorem C124_counter (l : List Name) :
    ((counter l).map (·.1)).Nodup ∧ (∀ x n, (x, n) ∈ counter l ↔ x ∈ l ∧ n = l.count x) ∧ ((counter l).map (·.2)).sum = l.length := by
  refine ⟨counter_nodup l, ?_, counter_sum l⟩
  intro x n
  constructor
  · intro h
    exact ⟨(counter_fst_mem l x).mp (List.mem_map_of_mem h), counter_count l _ h⟩
  · rintro ⟨h, rfl⟩
    obtain ⟨c, hc, rfl⟩ := List.mem_map.mp ((counter_fst_mem l x).mpr h)
    rw [← counter_count l c hc]
    exact hc

/-- The failure rate is the share of runs that did not converge among all runs, in percent to the nearest hundredth. -/
theorem C124_failure_rate (l : List Name) :
    |failureRate l - 100 * (l.count (chars! "not_converged")) / l.length| ≤ 1/200 ∧ (∃ k : ℤ, failureRate l = k / 100) := by
  unfold failureRate
  dsimp only
  rw [counter_lookup, foldl_add, counter_sum]
  by_cases h : (chars! "not_converged") ∈ l
  · rw [if_pos h]
    simp only [zero_add]
    refine ⟨?_, _, rfl⟩
    generalize (l.count (chars! "not_converged") : ℚ) = c
    generalize (l.length : ℚ) = n
    have h1 := abs_le.mp (rnd_near (c / n * 100 * 100))
    have h2 : 100 * c / n = c / n * 100 := by rw [mul_div_assoc, mul_comm]
    rw [h2, abs_le]
    constructor <;> linarith
  · rw [if_neg h]
    simp only
    have : l.count (chars! "not_converged") = 0 := List.count_eq_zero_of_not_mem h
    rw [this]
    exact ⟨by norm_num, 0, by norm_num⟩

/-- The failure rate is between 0 and 100 percent, 0 for a grid without failed runs (also for an empty grid: no division by zero), and 100
when no run converged. -/
theorem C124_failure_rate_range (l : List Name) :
    0 ≤ failureRate l ∧ failureRate l ≤ 100 ∧ ((chars! "not_converged") ∉ l → failureRate l = 0) ∧
    (l ≠ [] → (∀ x ∈ l, x = (chars! "not_converged")) → failureRate l = 100) := by
  unfold failureRate
  dsimp only
  rw [counter_lookup, foldl_add, counter_sum]
  by_cases h : (chars! "not_converged") ∈ l
  · rw [if_pos h]
    simp only [zero_add]
    have hn : (0 : ℚ) < l.length := by
      have : l ≠ [] := List.ne_nil_of_mem h
      exact_mod_cast List.length_pos_of_ne_nil this
    have hc : (l.count (chars! "not_converged") : ℚ) ≤ l.length := by exact_mod_cast List.count_le_length
    have h0 : (0 : ℤ) ≤ rnd ((l.count (chars! "not_converged") : ℚ) / l.length * 100 * 100) := by
      rw [← rnd_int 0]; exact rnd_mono (by push_cast; positivity)
    have h1 : rnd ((l.count (chars! "not_converged") : ℚ) / l.length * 100 * 100) ≤ 10000 := by
      rw [← rnd_int 10000]
      refine rnd_mono ?_
      have : (l.count (chars! "not_converged") : ℚ) / l.length ≤ 1 := (div_le_one hn).mpr hc
      push_cast
      linarith
    refine ⟨?_, ?_, fun h' => absurd h h', ?_⟩
    · have : (0 : ℚ) ≤ rnd ((l.count (chars! "not_converged") : ℚ) / l.length * 100 * 100) := by exact_mod_cast h0
      positivity
    · have : (rnd ((l.count (chars! "not_converged") : ℚ) / l.length * 100 * 100) : ℚ) ≤ 10000 := by exact_mod_cast h1
      linarith
    · intro _ hall
      have : l.count (chars! "not_converged") = l.length := List.count_eq_length.mpr fun b hb => (hall b hb).symm
      rw [this, div_self hn.ne']
      have : rnd (1 * 100 * 100) = 10000 := by rw [← rnd_int 10000]; norm_num
      rw [this]; norm_num
  · rw [if_neg h]
    refine ⟨le_refl _, by norm_num, fun _ => rfl, ?_⟩
    intro hne hall
    obtain ⟨x, hx⟩ := List.exists_mem_of_ne_nil l hne
    exact absurd ((hall x hx) ▸ hx) h

example : failureRate [(chars! "stable_MT"), (chars! "not_converged"), (chars! "no_MT")] = 3333/100 := by decide +kernel

/-- The checks are done in the order of the row, each gives its own reports; a check that is not known gives none and does not
stop the others. -/
theorem C124_checks {d : Disk (List Name × List (Name × List (Name × List Name)))}
    {csv : Option (List (Row × Option (Option (List Name))))} {i : ℕ} {r : Row} {path : Name} {cs : List Name}
    {g : List Name × List (Name × List (Name × List Name))} (h0 : rowOf csv i = .ok (r, some (some cs)))
    (h1 : r (chars! "path_to_grid") = some path) (h2 : d.file path = some g) :
    ∃ out, doCheck d csv i = .ok out ∧ out = (cs.map (check g.1 g.2)).flatten ∧
    check g.1 g.2 (chars! "failure_rate") = [.rate (failureRate g.1)] ∧
    (∀ c, c ≠ (chars! "failure_rate") → c ≠ (chars! "CO_type") → c ≠ (chars! "SN_type") → check g.1 g.2 c = []) := by
  refine ⟨cs.flatMap (check g.1 g.2), by simp [doCheck, h0, needFile, h1, h2], by rw [List.flatMap_def], rfl, ?_⟩
  intro c a b e
  simp [check, a, b, e]

/-- The reports on the types of compact objects and of supernovae: one for each column of each supernova model whose name contains the type, with
the name of the model put after the star, and the counts of the column. -/
theorem C124_type_counts (classes : List Name) (models : List (Name × List (Name × List Name))) (what : Name)
    (hw : what = (chars! "CO_type") ∨ what = (chars! "SN_type")) (rep : Report) :
    rep ∈ check classes models what ↔ ∃ m cols star short vals, (m, cols) ∈ models ∧ (star ++ short, vals) ∈ cols ∧
      isIn what (star ++ short) = true ∧ (star.length = 3 ∨ (star.length < 3 ∧ short = [])) ∧
      rep = .counts (star ++ m ++ (chars! "_") ++ short) (counter vals) := by
  have : check classes models what = typeCounts what models := by
    rcases hw with rfl | rfl <;> rfl
  rw [this]
  unfold typeCounts
  simp only [List.mem_flatMap, List.mem_map, List.mem_filter]
  constructor
  · rintro ⟨⟨m, cols⟩, hm, ⟨k, vals⟩, ⟨hc, hk⟩, rfl⟩
    refine ⟨m, cols, k.take 3, k.drop 3, vals, hm, by simpa using hc, by simpa using hk, ?_, rfl⟩
    rw [List.length_take]
    by_cases h3 : 3 ≤ k.length
    · exact .inl (by omega)
    · exact .inr ⟨by omega, List.drop_eq_nil_of_le (by omega)⟩
  · rintro ⟨m, cols, star, short, vals, hm, hc, hk, hs, rfl⟩
    refine ⟨(m, cols), hm, (star ++ short, vals), ⟨hc, hk⟩, ?_⟩
    rcases hs with hs | ⟨hs, rfl⟩
    · rw [show (3 : ℕ) = star.length from hs.symm]; simp
    · simp only [List.append_nil]
      rw [List.take_of_length_le (by omega), List.drop_eq_nil_of_le (by omega)]
      simp

example : doCheck ⟨fun p => if p = (chars! "g.h5") then some ([(chars! "no_MT")], [((chars! "M1"), [((chars! "S1_CO_type"), [(chars! "BH"), (chars! "BH")])])]) else none,
      fun _ => true⟩
    (some [(fun k => if k = (chars! "path_to_grid") then some (chars! "g.h5") else none,
      some (some [(chars! "what"), (chars! "CO_type"), (chars! "failure_rate")]))]) 0 =
    .ok [.counts (chars! "S1_M1_CO_type") [((chars! "BH"), 2)], .rate 0] := rfl

end Verif.PipeRun
