import Mathlib.Data.List.Basic
import Mathlib.Tactic.Common
/-!
Model of `download_one_dataset` (l.127-201) and `data_download` (l.203-230) of
`/repo/posydon/utils/data_download.py`.

Simplifications: the published sets are given by a table; a downloaded archive is its MD5 sum (`ℕ`) and whether `tarfile`
can open it; progress bars and messages are left out, except for the message of the `except` clause.  Which of the file
operations (retrieve, read for the check, remove, extract) raise an exception is an arbitrary parameter (`Faults`).
-/
namespace Verif.Download

/-- One entry of `ZENODO_COLLECTION`. -/
structure Entry where
  url : Option ℕ
  md5 : Option ℕ

structure Archive where
  md5 : ℕ
  opens : Bool

/-- Which operations raise: retrieving, reading for the check, removing after a failed check, extracting a member. -/
structure Faults where
  retrieve : Bool
  read : Bool
  remove : Bool
  extract : Bool

inductive Err | key | value | notADirectory | fileExists | io
  deriving DecidableEq, Repr

/-- The data directory: is it there, which archive files it holds, what has been extracted into it so far. -/
structure Disk where
  isDir : Bool
  files : ℕ → Option Archive
  extracted : List Archive

def Disk.put (d : Disk) (u : ℕ) (a : Option Archive) : Disk :=
  { d with files := fun v => if v = u then a else d.files v }

structure World where
  /-- `ZENODO_COLLECTION` -/
  collection : List (String × Entry)
  /-- `COMPLETE_SETS` -/
  sets : List (String × List String)
  /-- what the server sends for a URL -/
  server : ℕ → Archive
  /-- which operations fail for a data set -/
  faults : String → Faults

/-- The `try … except:` block l.168-188.  Returns the disk; the bare `except` swallows every exception, in particular the
`ValueError` raised after a mismatch. -/
def md5Block (d : Disk) (f : Faults) (u : ℕ) (a : Archive) (sum : ℕ) : Disk :=
  if f.read then d
  else if sum = a.md5 then d
  else if f.remove then d
  else d.put u none

/-- Extraction and removal of the archive, l.192-201: `tarfile.open` fails if the file is gone or is no archive. -/
def extract (d : Disk) (f : Faults) (u : ℕ) : Disk × Option Err :=
  match d.files u with
  | none => (d, some .io)
  | some b =>
    if !b.opens || f.extract then (d, some .io)
    else ({ d.put u none with extracted := d.extracted ++ [b] }, none)

/-- `download_one_dataset`, l.127-201, for a string argument. -/
def downloadOne (w : World) (md5Check : Bool) (d : Disk) (name : String) : Disk × Option Err :=
  match w.collection.lookup name with
  | none => (d, some .key)
  | some e =>
    match e.url with
    | none => (d, some .value)
    | some u =>
      let check := if e.md5.isNone then false else md5Check
      if !d.isDir then (d, some .notADirectory)
      else if (d.files u).isSome then (d, some .fileExists)
      else
        let f := w.faults name
        if f.retrieve then (d, some .io)
        else
          let a := w.server u
          let d1 := d.put u (some a)
          let d2 := if check then md5Block d1 f u a (e.md5.getD 0) else d1
          extract d2 f u

/-- `for dataset in COMPLETE_SETS[set_name]`, l.220-222; the first exception ends the loop. -/
def downloadAll (w : World) (md5Check : Bool) (d : Disk) : List String → Disk × Option Err
  | [] => (d, none)
  | n :: ns =>
    match downloadOne w md5Check d n with
    | (d', none) => downloadAll w md5Check d' ns
    | (d', some e) => (d', some e)

/-- `data_download`, l.203-230. -/
def dataDownload (w : World) (md5Check : Bool) (d : Disk) (setName : String) : Disk × Option Err :=
  match w.sets.lookup setName with
  | some names => downloadAll w md5Check d names
  | none =>
    match w.collection.lookup setName with
    | some _ => downloadOne w md5Check d setName
    | none => (d, some .key)

end Verif.Download
