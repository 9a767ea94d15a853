import Verif.Jobs
/-!
Model of the program that runs sequences of active learning on synthetic data,
`/repo/posydon/active_learning/psy_cris/run_params/run_psycris_sequence.py` `main` (l.32-141), and of the loop over iterations of
`/repo/posydon/active_learning/psy_cris/utils.py` `calc_performance` (l.640-662).

Simplifications: a sequence of sampling and the scores of one set of training data are parameters (they are the subject of C112); sampling gives back the dictionary
it was given as well, as it may change it. Directories are names of files with a prefix; a file that cannot be written is left as it was. Messages are left out.
`np.save` adds the ending `.npy`.
-/
namespace Verif.Sequence

open Jobs (Text dec)

inductive Err | value | other
  deriving DecidableEq

/-- The options of the command line, l.32-58. -/
structure Args where
  ini : Option Text
  dir : Option Text
  id : Text
  n : Int := 1
  start : Int := 27
  final : Int := 216
  perIter : Int := 70
  cls : Text := (chars! "linear")
  regr : Text := (chars! "rbf")
  res : Int := 40
  scale : ℚ := 3333 / 10000
  percent : ℚ := -1

/-- The arguments of the sampling besides those of the ini file, l.95-104. -/
structure Ask where
  start : Int
  final : Int
  perIter : Int
  dim : ℕ
  scale : ℚ
  percent : Option ℚ

/-- l.68-82 -/
def ask (a : Args) (dim : ℕ) : Ask :=
  { start := a.start, final := a.final, perIter := a.perIter, dim := dim, scale := a.scale, percent := if a.percent < 0 then none else some a.percent }

inductive Kind | dfs | acc | conf | diffs
  deriving DecidableEq

/-- The ending of the name of a file, l.107, 119-121. -/
def Kind.text : Kind → Text
  | .dfs => (chars! "_dfs_per_iter")
  | .acc => (chars! "_acc_per_iter.npy")
  | .conf => (chars! "_conf_matrix_per_iter.npy")
  | .diffs => (chars! "_abs_regr_frac_diffs_per_iter.npy")

/-- `save_data_dir + "/{0}i{1}_..."` -/
def name (dir id : Text) (i : ℕ) (k : Kind) : Text := dir ++ ['/'] ++ id ++ ['i'] ++ dec i ++ k.text

/-- What is in a file: training data of all iterations, or a list of scores. -/
inductive Content (D A C R : Type)
  | dfs (l : List D)
  | acc (l : List A)
  | conf (l : List C)
  | diffs (l : List R)

abbrev Files (D A C R : Type) := Text → Option (Content D A C R)

/-- The world: `kw` stands for dictionaries of settings. -/
structure World (K D A C R : Type) where
  isFile : Text → Bool
  isDir : Text → Bool
  parse : Text → Except Err K
  dim : K → ℕ
  sample : Ask → K → ℕ → K × Except Err (List D)
  score : Text → Text → Int → D → Except Err (A × C × R)
  writes : Text → Bool

variable {K D A C R : Type}

/-- Writing a file, if it can be written. -/
def put (w : World K D A C R) (fs : Files D A C R) (n : Text) (c : Content D A C R) : Files D A C R :=
  if w.writes n = true then fun m => if m = n then some c else fs m else fs

/-- `calc_performance`, l.640-662. -/
def performance (w : World K D A C R) (cls regr : Text) (res : Int) : List D → Except Err (List A × List C × List R)
  | [] => .ok ([], [], [])
  | d :: l =>
    match w.score cls regr res d with
    | .error e => .error e
    | .ok (x, y, z) =>
      match performance w cls regr res l with
      | .error e => .error e
      | .ok (xs, ys, zs) => .ok (x :: xs, y :: ys, z :: zs)

/-- l.105-139 for the training data of a sequence. -/
def store (w : World K D A C R) (a : Args) (dir : Text) (i : ℕ) (l : List D) (fs : Files D A C R) : Files D A C R :=
  if w.writes (name dir a.id i .dfs) = true then
    let fs := put w fs (name dir a.id i .dfs) (.dfs l)
    match performance w a.cls a.regr a.res l with
    | .error _ => fs
    | .ok (x, y, z) =>
      let fs := put w fs (name dir a.id i .acc) (.acc x)
      let fs := put w fs (name dir a.id i .conf) (.conf y)
      put w fs (name dir a.id i .diffs) (.diffs z)
  else fs

/-- The loop, l.91-139: `todo` sequences from number `i` on; every one starts from a copy of the settings. -/
def loop (w : World K D A C R) (a : Args) (dir : Text) (kw : K) : (todo : ℕ) → (i : ℕ) → Files D A C R → Files D A C R × Option Err
  | 0, _, fs => (fs, none)
  | todo + 1, i, fs =>
    match (w.sample (ask a (w.dim kw)) kw i).2 with
    | .error e => (fs, some e)
    | .ok l => loop w a dir kw todo (i + 1) (store w a dir i l fs)

/-- `main` -/
def main (w : World K D A C R) (a : Args) (fs : Files D A C R) : Files D A C R × Option Err :=
  match a.ini with
  | none => (fs, some .value)
  | some ini =>
    if w.isFile ini = true then
      match a.dir with
      | none => (fs, some .value)
      | some dir =>
        if w.isDir dir = true then
          match w.parse ini with
          | .error e => (fs, some e)
          | .ok kw => loop w a dir kw a.n.toNat 0 fs
        else (fs, some .value)
    else (fs, some .value)

end Verif.Sequence
