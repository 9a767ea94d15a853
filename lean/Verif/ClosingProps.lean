import Verif.Closing
import Verif.SingleProps
/-!
Property C156: what remains of the grids of single stars when they are closed.
-/
namespace Verif.Closing
open Classical
open Verif.Single (Run Row Name FV FKey masses keys finalKeys profileKeys decode below above below_mem above_mem)

/-! ### All masses are in memory -/

theorem loadAll_open (ms : List ℝ) : ∀ o : Obj, o.isOpen = true → (loadAll ms o).2 = .ok () ∧ (loadAll ms o).1.isOpen = true ∧ (loadAll ms o).1.runs = o.runs ∧
    ∀ m, m ∈ (loadAll ms o).1.cached ↔ m ∈ o.cached ∨ m ∈ ms := by
  induction ms with
  | nil => intro o h; simp [loadAll, h]
  | cons a ms ih =>
    intro o h
    unfold loadAll load
    rw [if_pos h]
    obtain ⟨h1, h2, h3, h4⟩ := ih { o with cached := a :: o.cached } h
    refine ⟨h1, h2, h3, fun m => ?_⟩
    rw [h4]
    simp only [List.mem_cons]
    tauto

/-- All masses of the file are in memory. -/
def Ready (o : Obj) : Prop := ∀ m ∈ masses o.runs, m ∈ o.cached

theorem make_ready (g : List Run) : Ready (make g) ∧ (make g).isOpen = true ∧ (make g).runs = g := by
  obtain ⟨-, h2, h3, h4⟩ := loadAll_open (masses g) ⟨g, true, []⟩ rfl
  refine ⟨fun m hm => ?_, h2, h3⟩
  rw [make, h4]
  right
  rwa [make, h3] at hm

theorem wants_known {o : Obj} : ∀ l : List ℝ, (∀ m ∈ l, m ∈ o.cached) → wants true l o = (o, .ok ())
  | [], _ => rfl
  | a :: l, h => by
    have ha : want true o a = (o, .ok ()) := by
      unfold want
      rw [if_pos ⟨h a (by simp), rfl⟩]
    unfold wants
    rw [ha]
    exact wants_known l fun m hm => h m (by simp [hm])

theorem wants_unknown (o : Obj) : ∀ l : List ℝ, l ≠ [] → (wants false l o).2 = (if o.isOpen then .error (.of .key) else .error .io)
  | [], h => absurd rfl h
  | a :: l, _ => by
    unfold wants want load
    cases hb : o.isOpen <;> simp

theorem wants_frame (known : Bool) : ∀ (l : List ℝ) (o : Obj), (wants known l o).1.runs = o.runs ∧ (wants known l o).1.isOpen = o.isOpen ∧
    ∀ m ∈ o.cached, m ∈ (wants known l o).1.cached
  | [], o => ⟨rfl, rfl, fun _ h => h⟩
  | a :: l, o => by
    have hw : (want known o a).1.runs = o.runs ∧ (want known o a).1.isOpen = o.isOpen ∧ ∀ m ∈ o.cached, m ∈ (want known o a).1.cached := by
      unfold want load
      by_cases h1 : a ∈ o.cached ∧ known = true
      · rw [if_pos h1]; exact ⟨rfl, rfl, fun _ h => h⟩
      · rw [if_neg h1]
        cases hb : o.isOpen with
        | false => simp [hb]
        | true => cases known <;> simp [hb] <;> tauto
    unfold wants
    generalize want known o a = r at hw
    obtain ⟨o', r⟩ := r
    cases r with
    | error e => exact hw
    | ok u =>
      obtain ⟨h1, h2, h3⟩ := wants_frame known l o'
      exact ⟨h1.trans hw.1, h2.trans hw.2.1, fun m hm => h3 m (hw.2.2 m hm)⟩

theorem sources_mem {g : List Run} {m x : ℝ} (h : x ∈ sources g m) : x ∈ masses g := by
  unfold sources at h
  by_cases hm : m ∈ masses g
  · rw [if_pos hm] at h
    rw [List.mem_singleton] at h
    exact h ▸ hm
  · rw [if_neg hm] at h
    cases ha : below (masses g) m with
    | none => rw [ha] at h; simp at h
    | some a =>
      cases hb : above (masses g) m with
      | none => rw [ha, hb] at h; simp at h
      | some b =>
        rw [ha, hb] at h
        simp only [List.mem_cons, List.not_mem_nil, or_false] at h
        rcases h with rfl | rfl
        · exact (below_mem ha).1
        · exact (above_mem hb).1

theorem down_mem (g : List Run) (k : FKey) (m : ℝ) (hm : m ∈ masses g) : ∀ x ∈ down g k m, x ∈ masses g := by
  induction m using down.induct g k with
  | case1 m h hb =>
    intro x hx
    unfold down at hx
    rw [if_pos h] at hx
    split at hx
    · simp at hx; exact hx ▸ hm
    · rename_i h'; rw [hb] at h'; cases h'
  | case2 m h a hb ih =>
    intro x hx
    unfold down at hx
    rw [if_pos h] at hx
    split at hx
    · rename_i h'; rw [hb] at h'; cases h'
    · rename_i c hc
      have : c = a := by rw [hb] at hc; cases hc; rfl
      subst this
      rcases List.mem_cons.1 hx with rfl | hx
      · exact hm
      · exact ih (below_mem hb).1 x hx
  | case3 m h =>
    intro x hx
    unfold down at hx
    rw [if_neg h] at hx
    simp at hx; exact hx ▸ hm

theorem up_mem (g : List Run) (k : FKey) (m : ℝ) (hm : m ∈ masses g) : ∀ x ∈ up g k m, x ∈ masses g := by
  induction m using up.induct g k with
  | case1 m h hb =>
    intro x hx
    unfold up at hx
    rw [if_pos h] at hx
    split at hx
    · simp at hx; exact hx ▸ hm
    · rename_i h'; rw [hb] at h'; cases h'
  | case2 m h a hb ih =>
    intro x hx
    unfold up at hx
    rw [if_pos h] at hx
    split at hx
    · rename_i h'; rw [hb] at h'; cases h'
    · rename_i c hc
      have : c = a := by rw [hb] at hc; cases hc; rfl
      subst this
      rcases List.mem_cons.1 hx with rfl | hx
      · exact hm
      · exact ih (above_mem hb).1 x hx
  | case3 m h =>
    intro x hx
    unfold up at hx
    rw [if_neg h] at hx
    simp at hx; exact hx ▸ hm

theorem walk_mem {g : List Run} {k : FKey} {m x : ℝ} (h : x ∈ walk g k m) : x ∈ masses g := by
  unfold walk at h
  by_cases hm : m ∈ masses g
  · rw [if_pos hm] at h
    rw [List.mem_singleton] at h
    exact h ▸ hm
  · rw [if_neg hm] at h
    cases ha : below (masses g) m with
    | none => rw [ha] at h; simp at h
    | some a =>
      cases hb : above (masses g) m with
      | none => rw [ha, hb] at h; simp at h
      | some b =>
        rw [ha, hb] at h
        rcases List.mem_append.1 h with h | h
        · exact down_mem g k a (below_mem ha).1 x h
        · exact up_mem g k b (above_mem hb).1 x h

theorem sources_ne {g : List Run} {m : ℝ} (h1 : ∃ x ∈ masses g, x ≤ m) (h2 : ∃ x ∈ masses g, m ≤ x) : sources g m ≠ [] := by
  unfold sources
  by_cases hm : m ∈ masses g
  · rw [if_pos hm]; simp
  · rw [if_neg hm]
    cases ha : below (masses g) m with
    | none =>
      obtain ⟨x, hx, hl⟩ := h1
      have := Single.below_none.1 ha x hx
      exact absurd (le_antisymm hl this ▸ hx) hm
    | some a =>
      cases hb : above (masses g) m with
      | none =>
        obtain ⟨x, hx, hl⟩ := h2
        have := Single.above_none.1 hb x hx
        exact absurd (le_antisymm this hl ▸ hx) hm
      | some b => simp

theorem walk_ne {g : List Run} {k : FKey} {m : ℝ} (h : sources g m ≠ []) : walk g k m ≠ [] := by
  unfold walk
  unfold sources at h
  by_cases hm : m ∈ masses g
  · rw [if_pos hm]; simp
  · rw [if_neg hm] at h ⊢
    cases ha : below (masses g) m with
    | none => rw [ha] at h; simp at h
    | some a =>
      cases hb : above (masses g) m with
      | none => rw [ha, hb] at h; simp at h
      | some b =>
        dsimp only
        unfold down
        split_ifs
        · split <;> simp
        · simp

theorem down_ne (g : List Run) (k : FKey) (m : ℝ) : down g k m ≠ [] := by
  unfold down
  split_ifs
  · split <;> simp
  · simp

/-! ### Uses do not change a grid -/

theorem act_frame (tol : ℝ) (argsort : List Interp.Node → List Interp.Node) (o : Obj) (op : Op) :
    (op.act tol argsort o).runs = o.runs ∧ ((op.act tol argsort o).isOpen = true ↔ o.isOpen = true ∧ op ≠ .close) ∧
      ∀ m ∈ o.cached, m ∈ (op.act tol argsort o).cached := by
  cases op with
  | track k m =>
    have hf := wants_frame (decide (k ∈ keys)) (sources o.runs m) o
    have he : (Op.act tol argsort o (.track k m)) = (wants (decide (k ∈ keys)) (sources o.runs m) o).1 := by
      show (get tol o k m).1 = _
      unfold get
      generalize wants (decide (k ∈ keys)) (sources o.runs m) o = w
      obtain ⟨w, _ | _⟩ := w <;> rfl
    rw [he]
    exact ⟨hf.1, by rw [hf.2.1]; simp, hf.2.2⟩
  | final k m =>
    cases hd : decode k with
    | none =>
      have hf := wants_frame false (sources o.runs m) o
      have he : (Op.act tol argsort o (.final k m)) = (wants false (sources o.runs m) o).1 := by
        show (getFinal o k m).1 = _
        unfold getFinal
        rw [hd]
        dsimp only
        generalize wants false (sources o.runs m) o = w
        obtain ⟨w, _ | _⟩ := w <;> rfl
      rw [he]
      exact ⟨hf.1, by rw [hf.2.1]; simp, hf.2.2⟩
    | some fk =>
      have hf := wants_frame (decide (k ∈ finalKeys)) (walk o.runs fk m) o
      have he : (Op.act tol argsort o (.final k m)) = (wants (decide (k ∈ finalKeys)) (walk o.runs fk m) o).1 := by
        show (getFinal o k m).1 = _
        unfold getFinal
        rw [hd]
        dsimp only
        generalize wants (decide (k ∈ finalKeys)) (walk o.runs fk m) o = w
        obtain ⟨w, _ | _⟩ := w <;> rfl
      rw [he]
      exact ⟨hf.1, by rw [hf.2.1]; simp, hf.2.2⟩
  | state k m =>
    cases hd : decode k with
    | none =>
      have hf := wants_frame false (sources o.runs m) o
      have he : (Op.act tol argsort o (.state k m)) = (wants false (sources o.runs m) o).1 := by
        show (getState o k m).1 = _
        unfold getState
        rw [hd]
        dsimp only
        generalize wants false (sources o.runs m) o = w
        obtain ⟨w, _ | _⟩ := w <;> rfl
      rw [he]
      exact ⟨hf.1, by rw [hf.2.1]; simp, hf.2.2⟩
    | some fk =>
      have hf := wants_frame (decide (k ∈ finalKeys)) (sources o.runs m) o
      have he : (Op.act tol argsort o (.state k m)) = (wants (decide (k ∈ finalKeys)) (sources o.runs m) o).1 := by
        show (getState o k m).1 = _
        unfold getState
        rw [hd]
        dsimp only
        generalize wants (decide (k ∈ finalKeys)) (sources o.runs m) o = w
        obtain ⟨w, _ | _⟩ := w <;> rfl
      rw [he]
      exact ⟨hf.1, by rw [hf.2.1]; simp, hf.2.2⟩
  | profile k m =>
    have hf := wants_frame (decide (k ∈ profileKeys)) (sources o.runs m) o
    have he : (Op.act tol argsort o (.profile k m)) = (wants (decide (k ∈ profileKeys)) (sources o.runs m) o).1 := by
      show (getProfile argsort o k m).1 = _
      unfold getProfile
      generalize wants (decide (k ∈ profileKeys)) (sources o.runs m) o = w
      obtain ⟨w, _ | _⟩ := w
      · rfl
      · dsimp only; split_ifs <;> rfl
    rw [he]
    exact ⟨hf.1, by rw [hf.2.1]; simp, hf.2.2⟩
  | close => exact ⟨rfl, by simp [Op.act, close], fun _ h => h⟩

/-- However a grid was used, it holds what its file held, all of it in memory, and its file is open unless it was closed once. -/
theorem C156_ready (tol : ℝ) (argsort : List Interp.Node → List Interp.Node) (g : List Run) (l : List Op) :
    (after tol argsort l (make g)).runs = g ∧ (∀ r ∈ g, r.mass ∈ (after tol argsort l (make g)).cached) ∧
      ((after tol argsort l (make g)).isOpen = true ↔ Op.close ∉ l) := by
  obtain ⟨h1, h2, h3⟩ := make_ready g
  have key : ∀ (l : List Op) (o : Obj), (after tol argsort l o).runs = o.runs ∧ (∀ m ∈ o.cached, m ∈ (after tol argsort l o).cached) ∧
      ((after tol argsort l o).isOpen = true ↔ o.isOpen = true ∧ Op.close ∉ l) := by
    intro l
    induction l with
    | nil => intro o; simp [after]
    | cons a l ih =>
      intro o
      obtain ⟨a1, a2, a3⟩ := act_frame tol argsort o a
      obtain ⟨b1, b2, b3⟩ := ih (a.act tol argsort o)
      refine ⟨b1.trans a1, fun m hm => b2 m (a3 m hm), ?_⟩
      rw [show after tol argsort (a :: l) o = after tol argsort l (a.act tol argsort o) from rfl, b3, a2]
      simp only [List.mem_cons, not_or]
      constructor
      · rintro ⟨⟨x, y⟩, z⟩; exact ⟨x, fun e => y e.symm, z⟩
      · rintro ⟨x, y, z⟩; exact ⟨⟨x, fun e => y e.symm⟩, z⟩
  obtain ⟨k1, k2, k3⟩ := key l (make g)
  refine ⟨k1.trans h3, fun r hr => k2 _ (h1 _ ?_), ?_⟩
  · rw [h3]; exact List.mem_map.2 ⟨r, hr, rfl⟩
  · rw [k3, h2]; simp

theorem after_ready (tol : ℝ) (argsort : List Interp.Node → List Interp.Node) (g : List Run) (l : List Op) :
    ∀ m ∈ masses g, m ∈ (after tol argsort l (make g)).cached := by
  intro m hm
  obtain ⟨r, hr, rfl⟩ := List.mem_map.1 hm
  exact (C156_ready tol argsort g l).2.1 r hr

/-- Tracks can be read from a grid whatever was done with it, also after its file was closed: they are those of the file. -/
theorem C156_tracks (tol : ℝ) (argsort : List Interp.Node → List Interp.Node) (g : List Run) (l : List Op) (key : String) (hk : key ∈ keys) (m : ℝ) :
    (get tol (after tol argsort l (make g)) key m).2 = lift (Single.get tol g key m) := by
  have hr := (C156_ready tol argsort g l).1
  unfold get
  rw [hr, decide_eq_true hk, wants_known _ fun x hx => after_ready tol argsort g l x (sources_mem hx)]

theorem decode_final : ∀ k ∈ finalKeys, decode k ≠ none := by decide +kernel

/-- Final values and states too. -/
theorem C156_finals (tol : ℝ) (argsort : List Interp.Node → List Interp.Node) (g : List Run) (l : List Op) (key : Name) (hk : key ∈ finalKeys) (m : ℝ) :
    ∃ k, decode key = some k ∧ (getFinal (after tol argsort l (make g)) key m).2 = lift (Single.getFinal g k m) ∧
      (getState (after tol argsort l (make g)) key m).2 = lift (Single.getState g k m) := by
  have hr := (C156_ready tol argsort g l).1
  cases hd : decode key with
  | none => exact absurd hd (decode_final key hk)
  | some k =>
    refine ⟨k, rfl, ?_, ?_⟩
    · unfold getFinal
      rw [hd]
      dsimp only
      rw [hr, decide_eq_true hk, wants_known _ fun x hx => after_ready tol argsort g l x (walk_mem hx)]
    · unfold getState
      rw [hd]
      dsimp only
      rw [hr, decide_eq_true hk, wants_known _ fun x hx => after_ready tol argsort g l x (sources_mem hx)]

theorem closed_false {tol : ℝ} {argsort : List Interp.Node → List Interp.Node} {g : List Run} {l : List Op} (h : Op.close ∈ l) :
    (after tol argsort l (make g)).isOpen = false := by
  have := (C156_ready tol argsort g l).2.2
  cases hb : (after tol argsort l (make g)).isOpen with
  | false => rfl
  | true => exact absurd h (this.1 hb)

/-- Profiles can be read as long as the file was not closed. -/
theorem C156_profiles_partial (tol : ℝ) (argsort : List Interp.Node → List Interp.Node) (g : List Run) (l : List Op) (h : Op.close ∉ l) (key : String)
    (hk : key ∈ profileKeys) (m : ℝ) : (getProfile argsort (after tol argsort l (make g)) key m).2 = lift (Single.getProfile argsort g key m) := by
  obtain ⟨hr, -, ho⟩ := C156_ready tol argsort g l
  unfold getProfile
  rw [hr, decide_eq_true hk, wants_known _ fun x hx => after_ready tol argsort g l x (sources_mem hx)]
  dsimp only
  rw [if_neg (by rw [ho.2 h]; simp)]

/-- VIOLATED for profiles: once the file was closed no profile can be read any more, of no star in the range of the grid, although all columns of the
profiles are in memory. -/
theorem C156_profiles_closed_violated (tol : ℝ) (argsort : List Interp.Node → List Interp.Node) (g : List Run) (l : List Op) (h : Op.close ∈ l) (key : String)
    (hk : key ∈ profileKeys) (m : ℝ) (h1 : ∃ r ∈ g, r.mass ≤ m) (h2 : ∃ r ∈ g, m ≤ r.mass) :
    (getProfile argsort (after tol argsort l (make g)) key m).2 = .error .io := by
  have hr := (C156_ready tol argsort g l).1
  obtain ⟨r1, m1, l1⟩ := h1
  obtain ⟨r2, m2, l2⟩ := h2
  have hs : sources g m ≠ [] := sources_ne ⟨_, List.mem_map.2 ⟨r1, m1, rfl⟩, l1⟩ ⟨_, List.mem_map.2 ⟨r2, m2, rfl⟩, l2⟩
  unfold getProfile
  rw [hr, decide_eq_true hk, wants_known _ fun x hx => after_ready tol argsort g l x (sources_mem hx)]
  dsimp only
  rw [if_pos ⟨hs, closed_false h⟩]

/-- So no star that reaches the end of its life gets its profile after the population was closed. -/
theorem C156_star_violated (tol : ℝ) (argsort : List Interp.Node → List Interp.Node) (g : List Run) (l : List Op) (h : Op.close ∈ l) (names : List String)
    (m : ℝ) (h1 : ∃ r ∈ g, r.mass ≤ m) (h2 : ∃ r ∈ g, m ≤ r.mass) : (starProfile argsort names m (after tol argsort l (make g))).2 = .error .io := by
  have hv := C156_profiles_closed_violated tol argsort g l h "mass" (by decide) m h1 h2
  unfold starProfile
  generalize getProfile argsort (after tol argsort l (make g)) "mass" m = w at hv
  obtain ⟨w, e | p⟩ := w
  · dsimp only at hv ⊢
    cases hv
    rfl
  · cases hv

/-- A star gets its profile from an open file if the grid has one for it. -/
theorem C156_star (tol : ℝ) (argsort : List Interp.Node → List Interp.Node) (g : List Run) (l : List Op) (h : Op.close ∉ l) (names : List String)
    (hn : ∀ k ∈ names, k ∈ profileKeys) (m : ℝ) (p : List ℝ × List Row) (hp : Single.getProfile argsort g "mass" m = .ok p)
    (col : String → List ℝ) (hc : ∀ k ∈ names, ∃ q, Single.getProfile argsort g k m = .ok (col k, q)) :
    (starProfile argsort names m (after tol argsort l (make g))).2 = .ok (p.2, names.map fun k => (k, col k)) := by
  have hg : ∀ (key : String), key ∈ profileKeys → getProfile argsort (after tol argsort l (make g)) key m =
      (after tol argsort l (make g), lift (Single.getProfile argsort g key m)) := by
    intro key hk
    obtain ⟨hr, -, ho⟩ := C156_ready tol argsort g l
    unfold getProfile
    rw [hr, decide_eq_true hk, wants_known _ fun x hx => after_ready tol argsort g l x (sources_mem hx)]
    dsimp only
    rw [if_neg (by rw [ho.2 h]; simp)]
  have hcol : ∀ names : List String, (∀ k ∈ names, k ∈ profileKeys) → (∀ k ∈ names, ∃ q, Single.getProfile argsort g k m = .ok (col k, q)) →
      columns argsort m names (after tol argsort l (make g)) = (after tol argsort l (make g), .ok (names.map fun k => (k, col k))) := by
    intro names
    induction names with
    | nil => intros; rfl
    | cons k ks ih =>
      intro h1 h2
      obtain ⟨q, hq⟩ := h2 k (by simp)
      unfold columns
      rw [hg k (h1 k (by simp)), hq]
      dsimp only [lift]
      rw [ih (fun x hx => h1 x (by simp [hx])) fun x hx => h2 x (by simp [hx])]
      rfl
  unfold starProfile
  rw [hg "mass" (by decide), hp]
  dsimp only [lift]
  rw [hcol names hn hc]

/-- A column that a grid does not have is a `KeyError` while the file is open, and the error of a closed file afterwards; outside the masses of the grid
both are a `ValueError`. -/
theorem C156_unknown (tol : ℝ) (argsort : List Interp.Node → List Interp.Node) (g : List Run) (l : List Op) (key : String) (hk : key ∉ keys) (m : ℝ) :
    ((∃ r ∈ g, r.mass ≤ m) → (∃ r ∈ g, m ≤ r.mass) →
      (get tol (after tol argsort l (make g)) key m).2 = if Op.close ∈ l then .error .io else .error (.of .key)) ∧
    (((∀ r ∈ g, m < r.mass) ∨ ∀ r ∈ g, r.mass < m) → (get tol (after tol argsort l (make g)) key m).2 = .error (.of .value)) := by
  obtain ⟨hr, -, ho⟩ := C156_ready tol argsort g l
  constructor
  · rintro ⟨r1, m1, l1⟩ ⟨r2, m2, l2⟩
    have hs : sources g m ≠ [] := sources_ne ⟨_, List.mem_map.2 ⟨r1, m1, rfl⟩, l1⟩ ⟨_, List.mem_map.2 ⟨r2, m2, rfl⟩, l2⟩
    have hu := wants_unknown (after tol argsort l (make g)) (sources g m) hs
    unfold get
    rw [hr, decide_eq_false hk]
    by_cases hc : Op.close ∈ l
    · rw [closed_false hc] at hu
      rw [if_pos hc]
      generalize wants false (sources g m) (after tol argsort l (make g)) = w at hu
      obtain ⟨w, e | u⟩ := w
      · simpa using hu
      · simp at hu
    · rw [ho.2 hc] at hu
      rw [if_neg hc]
      generalize wants false (sources g m) (after tol argsort l (make g)) = w at hu
      obtain ⟨w, e | u⟩ := w
      · simpa using hu
      · simp at hu
  · intro hout
    have hs : sources g m = [] := by
      unfold sources
      have hm : m ∉ masses g := by
        intro hm
        obtain ⟨r, hr, rfl⟩ := List.mem_map.1 hm
        rcases hout with h | h <;> exact lt_irrefl _ (h r hr)
      rw [if_neg hm]
      rcases hout with h | h
      · rw [Single.below_none.2 (by intro x hx; obtain ⟨r, hr, rfl⟩ := List.mem_map.1 hx; exact (h r hr).le)]
      · rw [Single.above_none.2 (by intro x hx; obtain ⟨r, hr, rfl⟩ := List.mem_map.1 hx; exact (h r hr).le)]
        cases below (masses g) m <;> rfl
    unfold get
    rw [hr, hs]
    dsimp only [wants]
    rw [(Single.C90_outside tol g m hout).1 key]
    rfl

/-! ### A simulation and a population -/

/-- All grids of a simulation are closed. -/
def Sim.AllClosed (s : Sim) : Prop := ∀ e ∈ s.rich ++ s.stripped, e.2.isOpen = false

/-- Closing a simulation closes all its grids, keeps them with what they have in memory, and closing again changes nothing. -/
theorem C156_simulation (s : Sim) : s.close.AllClosed ∧ s.close.close = s.close ∧ s.close.rich.map (fun e => (e.1, e.2.runs, e.2.cached)) =
    s.rich.map (fun e => (e.1, e.2.runs, e.2.cached)) ∧
    s.close.stripped.map (fun e => (e.1, e.2.runs, e.2.cached)) = s.stripped.map (fun e => (e.1, e.2.runs, e.2.cached)) := by
  refine ⟨?_, ?_, ?_, ?_⟩
  · intro e he
    unfold Sim.close at he
    rcases List.mem_append.1 he with h | h <;> obtain ⟨x, -, rfl⟩ := List.mem_map.1 h <;> rfl
  · simp [Sim.close, close, Function.comp_def]
  · simp [Sim.close, close, Function.comp_def]
  · simp [Sim.close, close, Function.comp_def]

/-- VIOLATED: a matcher made after closing gets closed grids for a metallicity that was used before; only other metallicities get open ones. -/
theorem C156_reuse_violated (rich stripped : ℚ → List Run) (s : Sim) (z : ℚ) (o : Obj) (h : (z, o) ∈ (s.close.prepare rich stripped z).rich) :
    o.isOpen = decide (z ∉ s.rich.map (·.1)) := by
  have hz : s.close.rich.map (·.1) = s.rich.map (·.1) := by simp [Sim.close, Function.comp_def]
  unfold Sim.prepare grab at h
  dsimp only at h
  rw [hz] at h
  by_cases hm : z ∈ s.rich.map (·.1)
  · rw [if_pos hm] at h
    rw [decide_eq_false (by simpa using hm)]
    exact (C156_simulation s).1 _ (List.mem_append_left _ h)
  · rw [if_neg hm] at h
    rw [decide_eq_true hm]
    rcases List.mem_append.1 h with h | h
    · exact absurd (List.mem_map.2 ⟨_, h, rfl⟩ : z ∈ s.close.rich.map (·.1)) (hz ▸ hm)
    · simp only [List.mem_singleton, Prod.mk.injEq, true_and] at h
      rw [h]
      exact (make_ready _).2.1

/-- The same for the grids of stripped stars. -/
theorem C156_reuse_stripped_violated (rich stripped : ℚ → List Run) (s : Sim) (z : ℚ) (o : Obj) (h : (z, o) ∈ (s.close.prepare rich stripped z).stripped) :
    o.isOpen = decide (z ∉ s.stripped.map (·.1)) := by
  have hz : s.close.stripped.map (·.1) = s.stripped.map (·.1) := by simp [Sim.close, Function.comp_def]
  unfold Sim.prepare grab at h
  dsimp only at h
  rw [hz] at h
  by_cases hm : z ∈ s.stripped.map (·.1)
  · rw [if_pos hm] at h
    rw [decide_eq_false (by simpa using hm)]
    exact (C156_simulation s).1 _ (List.mem_append_right _ h)
  · rw [if_neg hm] at h
    rw [decide_eq_true hm]
    rcases List.mem_append.1 h with h | h
    · exact absurd (List.mem_map.2 ⟨_, h, rfl⟩ : z ∈ s.close.stripped.map (·.1)) (hz ▸ hm)
    · simp only [List.mem_singleton, Prod.mk.injEq, true_and] at h
      rw [h]
      exact (make_ready _).2.1

/-- A matcher shares the grids of its metallicity: none is opened twice, and there is always one afterwards. -/
theorem C156_shared (file : ℚ → List Run) (d : List (ℚ × Obj)) (z : ℚ) : grab file (grab file d z) z = grab file d z ∧ z ∈ (grab file d z).map (·.1) ∧
    ∀ e ∈ d, e ∈ grab file d z := by
  have hz : z ∈ (grab file d z).map (·.1) := by
    unfold grab
    by_cases h : z ∈ d.map (·.1)
    · rw [if_pos h]; exact h
    · rw [if_neg h]; simp
  refine ⟨?_, hz, ?_⟩
  · conv_lhs => unfold grab
    rw [show (if z ∈ d.map (·.1) then d else d ++ [(z, make (file z))]) = grab file d z from rfl, if_pos hz]
  · intro e he
    unfold grab
    split_ifs
    · exact he
    · exact List.mem_append_left _ he

/-- VIOLATED: making a copy of a population for another process changes the population itself: it loses its communicator, and its grids are closed if
its steps are loaded. Everything else stays, and the copy is what the population has become. -/
theorem C156_pickle_violated {C R : Type} (p : Pop C R) : p.getstate.1 = p.getstate.2 ∧ p.getstate.1.comm = none ∧
    (p.loaded = true → p.getstate.1.sim.AllClosed) ∧ (p.loaded = false → p.getstate.1.sim = p.sim) ∧ p.getstate.1.loaded = p.loaded ∧
    p.getstate.1.rest = p.rest := by
  refine ⟨rfl, rfl, ?_, ?_, rfl, rfl⟩
  · intro h
    unfold Pop.getstate
    dsimp only
    rw [if_pos h]
    exact (C156_simulation p.sim).1
  · intro h
    unfold Pop.getstate
    dsimp only
    rw [if_neg (by rw [h]; simp)]

/-- VIOLATED, put together: after a copy of a population with loaded steps was made for another process, no star in the range of a grid that the
population had in use can be given its profile any more. -/
theorem C156_pickled_star_violated {C R : Type} (tol : ℝ) (argsort : List Interp.Node → List Interp.Node) (p : Pop C R) (hp : p.loaded = true) (z : ℚ) (g : List Run)
    (l : List Op) (h : (z, after tol argsort l (make g)) ∈ p.sim.rich ∨ (z, after tol argsort l (make g)) ∈ p.sim.stripped) (names : List String) (m : ℝ)
    (h1 : ∃ r ∈ g, r.mass ≤ m) (h2 : ∃ r ∈ g, m ≤ r.mass) :
    ∃ o, ((z, o) ∈ p.getstate.1.sim.rich ∨ (z, o) ∈ p.getstate.1.sim.stripped) ∧ (starProfile argsort names m o).2 = .error .io := by
  have he : close (after tol argsort l (make g)) = after tol argsort (l ++ [.close]) (make g) := by simp [after, Op.act]
  refine ⟨close (after tol argsort l (make g)), ?_, ?_⟩
  · unfold Pop.getstate Sim.close
    dsimp only
    rw [if_pos hp]
    rcases h with h | h
    · exact .inl (List.mem_map.2 ⟨_, h, rfl⟩)
    · exact .inr (List.mem_map.2 ⟨_, h, rfl⟩)
  · rw [he]
    exact C156_star_violated tol argsort g _ (by simp) names m h1 h2

/-! ### Examples -/

noncomputable def exRun (m : ℝ) : Run := ⟨fun _ => m, [], fun _ => .num m, fun _ => none, [fun _ => m]⟩

example : ∃ p, (getProfile id (after 0 id [.track "age" 1] (make [exRun 1])) "radius" 1).2 = .ok p := by
  rw [C156_profiles_partial 0 id [exRun 1] [.track "age" 1] (by simp) "radius" (by decide) 1]
  have hf : Single.find [exRun 1] 1 = some (exRun 1) := by simp [Single.find, Run.mass, exRun]
  unfold Single.getProfile
  rw [hf]
  exact ⟨_, rfl⟩

example : (getProfile id (after 0 id [.track "age" 1, .close, .final (chars! "S1_r_core_CE_1cent") 1] (make [exRun 1])) "radius" 1).2 = .error .io :=
  C156_profiles_closed_violated 0 id [exRun 1] _ (by simp) "radius" (by decide) 1 ⟨exRun 1, by simp, by simp [Run.mass, exRun]⟩
    ⟨exRun 1, by simp, by simp [Run.mass, exRun]⟩

example : (starProfile id ["mass", "radius"] 1 (after 0 id [.close] (make [exRun 1, exRun 2]))).2 = .error .io :=
  C156_star_violated 0 id [exRun 1, exRun 2] _ (by simp) _ 1 ⟨exRun 1, by simp, by simp [Run.mass, exRun]⟩ ⟨exRun 2, by simp, by simp [Run.mass, exRun]⟩

example : (chars! "S1_SN_MODEL_v2_01_mass") ∈ finalKeys ∧ "log_R" ∈ keys ∧ "pressure" ∉ keys := by decide +kernel

end Verif.Closing
