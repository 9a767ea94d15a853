import Verif.Download

/-!
Model of the published data sets, `/repo/posydon/utils/datasets.py` l.24-199, of their listing (`list_datasets`,
`/repo/posydon/utils/data_download.py` l.85-125), of the command `get-posydon-data` (l.26-61, l.232-243) and of the paths of the environment
(`ensure_path`, `/repo/posydon/config.py` l.7-30).  Downloading itself is `Verif.Download`.

Simplifications: a file is the position of its name in the list of all names; descriptions and line breaks of the listing are left out
(what is shown is the list of names); the options are given as `argparse` returns them.
-/
namespace Verif.Datasets

open Verif.Download

/-- `ZENODO_COLLECTION`: name, name of the file of `data`, `md5`. -/
def published : List (String × Option String × Option ℕ) := [
  ("POSYDON", none, none),
  ("auxiliary", some "POSYDON_data_auxiliary.tar.gz", some 0xa7434279e38e701f580995cebb1b54fb),
  ("DR1_for_v2.0.0-pre1", some "POSYDON_data.tar.gz", some 0xcf645a45b9b92c2ad01e759eb1950beb),
  ("DR1-super_Eddington", some "POSYDON_data_super_Eddington.tar.gz", some 0x64b46fbd65cb54819371a1cbc714019c),
  ("DR2_grids_2Zsun", some "POSYDON_data_DR2_grids_2Zsun.tar.gz", some 0x6505fe4262f89150373dec36b5789cf4),
  ("DR2_grids_1Zsun", some "POSYDON_data_DR2_grids_1Zsun.tar.gz", some 0xe279f47a5c18224a90937d3d86478c20),
  ("DR2_grids_0.45Zsun", some "POSYDON_data_DR2_grids_0.45Zsun.tar.gz", some 0x2a1fc384b40bc22f20623c2c88e138c7),
  ("DR2_grids_0.2Zsun", some "POSYDON_data_DR2_grids_0.2Zsun.tar.gz", some 0x73935a00e71635f01150b960c7efb9be),
  ("DR2_grids_0.1Zsun", some "POSYDON_data_DR2_grids_0.1Zsun.tar.gz", some 0x474b86e19a1e659cadf11c92c4caca73),
  ("DR2_grids_0.01Zsun", some "POSYDON_data_DR2_grids_0.01Zsun.tar.gz", some 0x11934f5cbf49d738d3412a9a467003b0),
  ("DR2_grids_1e-3Zsun", some "POSYDON_data_DR2_grids_1e-3Zsun.tar.gz", some 0xc48046871d0671b2338943fca5d9ec0c),
  ("DR2_grids_1e-4Zsun", some "POSYDON_data_DR2_grids_1e-4Zsun.tar.gz", some 0x32c070fa87932a97f93df8ec195bf41e),
  ("v2_tutorial_populations", some "POSYDON_tutorial_populations.tar.gz", some 0xd66d181bbd74d3cd30b4360729034566),
  ("2025_school_data", some "POSYDON_2025_school_data.tar.gz", some 0xc675fbcae43962b99bbbd8599cb21eff)]

/-- `COMPLETE_SETS`. -/
def complete : List (String × List String) := [
  ("DR1", ["DR1_for_v2.0.0-pre1"]),
  ("DR1.1", ["DR1_for_v2.0.0-pre1", "DR1-super_Eddington"]),
  ("DR2", ["auxiliary", "DR2_grids_2Zsun", "DR2_grids_1Zsun", "DR2_grids_0.45Zsun", "DR2_grids_0.2Zsun", "DR2_grids_0.1Zsun",
    "DR2_grids_0.01Zsun", "DR2_grids_1e-3Zsun", "DR2_grids_1e-4Zsun"]),
  ("DR2_2Zsun", ["auxiliary", "DR2_grids_2Zsun"]),
  ("DR2_1Zsun", ["auxiliary", "DR2_grids_1Zsun"]),
  ("DR2_0.45Zsun", ["auxiliary", "DR2_grids_0.45Zsun"]),
  ("DR2_0.2Zsun", ["auxiliary", "DR2_grids_0.2Zsun"]),
  ("DR2_0.1Zsun", ["auxiliary", "DR2_grids_0.1Zsun"]),
  ("DR2_0.01Zsun", ["auxiliary", "DR2_grids_0.01Zsun"]),
  ("DR2_1e-3Zsun", ["auxiliary", "DR2_grids_1e-3Zsun"]),
  ("DR2_1e-4Zsun", ["auxiliary", "DR2_grids_1e-4Zsun"]),
  ("v2_tutorial_populations", ["v2_tutorial_populations"]),
  ("2025_school_data", ["2025_school_data"])]

/-- The names of all files. -/
def fileNames : List String := published.filterMap fun e => e.2.1

def entry (e : Option String × Option ℕ) : Entry := ⟨e.1.map fun f => fileNames.idxOf f, e.2⟩

/-- The collection as the downloader sees it. -/
def collection : List (String × Entry) := published.map fun e => (e.1, entry e.2)

/-- The world with the published tables, any server and any faults. -/
def world (server : ℕ → Archive) (faults : String → Faults) : World := ⟨collection, complete, server, faults⟩

/-! ### listing, data_download.py l.85-125 -/

/-- One line (with its indentation) of what is printed. -/
inductive Line | set (name : String) | data (name : String)
  deriving DecidableEq, Repr

/-- `list_datasets`; the title of a name that is not in the collection is a `KeyError`. -/
def listSets (coll : List (String × Entry)) (sets : List (String × List String)) (individual : Bool) : Option (List Line) :=
  if individual then some (coll.map fun e => .data e.1)
  else (sets.mapM fun s : String × List String => (s.2.mapM fun n => (coll.lookup n).map fun _ => Line.data n).map fun l => Line.set s.1 :: l).map List.flatten

/-! ### the command, l.26-61 and l.232-243 -/

inductive Kind | complete | individual
  deriving DecidableEq, Repr

/-- The options: `-l` alone means `complete`. -/
structure Args where
  dataset : Option String
  listed : Option Kind
  nomd5 : Bool

inductive Outcome
  | refused
  | listed (lines : Option (List Line))
  | downloaded (disk : Disk) (err : Option Err)

/-- `_get_posydon_data`. -/
def command (w : World) (d : Disk) (a : Args) : Outcome :=
  let name := a.dataset.getD "DR2"
  if name ∉ w.sets.map Prod.fst ++ w.collection.map Prod.fst then .refused
  else
    match a.listed with
    | some .complete => .listed (listSets w.collection w.sets false)
    | some .individual => .listed (listSets w.collection w.sets true)
    | none => .downloaded (dataDownload w (!a.nomd5) d name).1 (dataDownload w (!a.nomd5) d name).2

/-! ### the environment, config.py l.7-30 -/

inductive PathErr | type | name | directory
  deriving DecidableEq, Repr

/-- `ensure_path`; `none` as a name is something that is not a text. -/
def ensurePath (env : String → Option String) (isDir : String → Bool) : Option String → Except PathErr String
  | none => .error .type
  | some n => match env n with
    | none => .error .name
    | some v => if isDir v then .ok v else .error .directory

end Verif.Datasets
