import Verif.MesaTrack
/-!
Property theorems for the recording of grid tracks: C69.
-/
namespace Verif.MesaTrack

/-- C69 is false in full: without recording the track and without saving the initial conditions the step cannot be
used, every property ends with an unbound variable. -/
theorem C69_neither_violated {V : Type} (o : Ops V) (c : Cfg) (t : Track V) (n0 : Nat) (k : BKind) (x : Cell V)
    (h1 : c.track = false) (h2 : c.save = false) : updB o c t n0 k x = .error .unbound := by
  simp [updB, h1, h2]

/-- C69.  If the binary history and the star histories of the track have the same number of rows, every history of the
binary grows by the same number of rows: one for the saved initial conditions and one for each row of the track but the
last.  Missing for the full claim: see `C69_unequal_violated`, `C69_neither_violated`. -/
theorem C69_binary_aligned_partial {V : Type} (o : Ops V) (c : Cfg) (t : Track V) (n0 n : Nat) (k : BKind) (x : Cell V)
    (hc : c.track = true ∨ c.save = true) (hn : 0 < n) (hb : Rect t.bcol n) (hs : Rect (t.scol false) n)
    (hx : x.hist.length = n0) (h0 : 0 < n0) :
    ∃ y, updB o c t n0 k x = .ok y ∧ y.hist.length = n0 + added c n := by
  have hlb : t.lb = n := lb_eq t _ hb
  have hls : t.ls = n := ls_eq t _ hs
  have hL : t.L = n := by simp [Track.L, hlb, hls]
  have hbug : t.bug = false := by simp [Track.bug, hlb, hls]
  have hg : (!c.track && !c.save) = false := by rcases hc with h | h <;> simp [h]
  simp only [updB, hg, Bool.false_eq_true, if_false]
  cases k with
  | unmapped => exact ⟨_, rfl, by simp [padB_eq _ _ _ _ _ hbug, grow_length, hx, hL]⟩
  | time name =>
    obtain ⟨z, a, hz, ha⟩ := ends _ n (hb name) hn
    simp only [hz, ha]
    exact ⟨_, rfl, by simp [padB_eq _ _ _ _ _ hbug, grow_length, hx, initRows_length _ n (hb name)]⟩
  | dist => exact ⟨_, rfl, by simp [padB_eq _ _ _ _ _ hbug, grow_length, hx, hL]⟩
  | keep =>
    have hne : x.hist ≠ [] := by intro h; rw [h] at hx; simp at hx; omega
    simp only [List.getLast?_eq_getLast_of_ne_nil hne]
    exact ⟨_, rfl, by simp [padB_eq _ _ _ _ _ hbug, grow_length, hx, hL]⟩
  | col name =>
    obtain ⟨z, a, hz, ha⟩ := ends _ n (hb name) hn
    simp only [hz, ha]
    exact ⟨_, rfl, by simp [padB_eq _ _ _ _ _ hbug, grow_length, hx, initRows_length _ n (hb name)]⟩

/-- C69.  The same for the histories of both stars, compact or not. -/
theorem C69_star_aligned_partial {V : Type} (o : Ops V) (c : Cfg) (t : Track V) (s : Bool) (n0 m n : Nat) (k : SKind)
    (x : Cell V) (hc : c.track = true ∨ c.save = true) (hn : 0 < n) (hb : Rect t.bcol n)
    (hs : Rect (t.scol false) n) (hs' : Rect (t.scol s) n) (hx : x.hist.length = n0) :
    ∃ y, updS o c t s n0 m k x = .ok y ∧ y.hist.length = n0 + added c n := by
  have hlb : t.lb = n := lb_eq t _ hb
  have hls : t.ls = n := ls_eq t _ hs
  have hL : t.L = n := by simp [Track.L, hlb, hls]
  have hbug : t.bug = false := by simp [Track.bug, hlb, hls]
  have hg : (!c.track && !c.save) = false := by rcases hc with h | h <;> simp [h]
  simp only [updS, hg, Bool.false_eq_true, if_false]
  have hcol : ∀ name, ∃ z a m0, (t.bcol name).getLast? = some z ∧ (initRows (t.bcol name)).head? = some a ∧
      (t.bcol name).head? = some m0 := by
    intro name
    obtain ⟨z, a, hz, ha⟩ := ends _ n (hb name) hn
    have hne : t.bcol name ≠ [] := by intro h; have := hb name; rw [h] at this; simp at this
    exact ⟨z, a, _, hz, ha, List.head?_eq_some_head hne⟩
  cases k with
  | unmapped => exact ⟨_, rfl, by simp [padS_eq _ _ _ _ _ _ hbug, grow_length, hx, hL]⟩
  | metallicity => exact ⟨_, rfl, by simp [padS_eq _ _ _ _ _ _ hbug, grow_length, hx, hL]⟩
  | profile => exact ⟨_, rfl, by simp [padS_eq _ _ _ _ _ _ hbug, grow_length, hx, hL]⟩
  | coKeep => exact ⟨_, rfl, by simp [padS_eq _ _ _ _ _ _ hbug, grow_length, hx, hL]⟩
  | binCol name =>
    obtain ⟨z, a, m0, hz, ha, _⟩ := hcol name
    simp only [hz, ha]
    exact ⟨_, rfl, by simp [padS_eq _ _ _ _ _ _ hbug, grow_length, hx, initRows_length _ n (hb name)]⟩
  | coMass name =>
    obtain ⟨z, a, m0, hz, ha, _⟩ := hcol name
    simp only [hz, ha]
    exact ⟨_, rfl, by simp [padS_eq _ _ _ _ _ _ hbug, grow_length, hx, initRows_length _ n (hb name)]⟩
  | col name =>
    obtain ⟨z, a, hz, ha⟩ := ends _ n (hs' name) hn
    simp only [hz, ha]
    exact ⟨_, rfl, by simp [padS_eq _ _ _ _ _ _ hbug, grow_length, hx, initRows_length _ n (hs' name)]⟩
  | coSpin name =>
    obtain ⟨z, a, m0, hz, ha, hm⟩ := hcol name
    simp only [hz, ha, hm]
    exact ⟨_, rfl, by simp [padS_eq _ _ _ _ _ _ hbug, grow_length, hx, initRows_length _ n (hb name)]⟩
  | coLogR name =>
    obtain ⟨z, a, m0, hz, ha, _⟩ := hcol name
    simp only [hz, ha]
    exact ⟨_, rfl, by simp [padS_eq _ _ _ _ _ _ hbug, grow_length, hx, initRows_length _ n (hb name)]⟩

/-- C69.  The histories of states, events and mass-transfer cases grow by the same number of rows as the other
histories, and (unless they are about to be dropped) each new entry is the classification of the values in its own
row: the Python indices `n0` and `-L, …, -1` used by the code are the rows `n0, …, n0 + added - 1`. -/
theorem C69_states_of_rows {V : Type} (o : Ops V) (c : Cfg) (t : Track V) (n0 : Nat) (byRow : Nat → V) (h : List V)
    (hh : h.length = n0) :
    let N : Int := (n0 + added c t.L : Nat)
    let row : Int → V := fun i => byRow (if i < 0 then N + i else i).toNat
    (stateHist o c t n0 row h).length = n0 + added c t.L ∧
    (c.flush = false → c.track = true → c.save = true →
      stateHist o c t n0 row h = h ++ byRow n0 :: (List.range t.L).map (fun j => byRow (n0 + 1 + j))) ∧
    (c.flush = false → c.track = true → c.save = false →
      stateHist o c t n0 row h = h ++ (List.range t.L).map (fun j => byRow (n0 + j))) ∧
    (c.track = false → c.save = true → stateHist o c t n0 row h = h ++ [byRow n0]) := by
  intro N row
  have r0 : row (n0 : Int) = byRow n0 := by
    have : ¬ ((n0 : Int) < 0) := by omega
    simp only [row, if_neg this, Int.toNat_natCast]
  refine ⟨?_, fun hf ht hs => ?_, fun hf ht hs => ?_, fun ht hs => ?_⟩
  · simp only [stateHist, added]
    cases c.save <;> cases c.track <;> cases c.flush <;> simp [hh] <;> omega
  · simp only [stateHist, hf, ht, hs, if_true, Bool.not_false, r0, List.append_assoc, List.singleton_append]
    congr 2
    apply List.map_congr_left
    intro j hj
    have hj' : j < t.L := List.mem_range.1 hj
    have hneg : (-(t.L : Int) + j) < 0 := by omega
    simp only [row, if_pos hneg]
    congr 1
    simp only [N, added, hs, ht, if_true]
    omega
  · simp only [stateHist, hf, ht, hs, if_true, Bool.not_false, Bool.false_eq_true, if_false]
    congr 1
    apply List.map_congr_left
    intro j hj
    have hj' : j < t.L := List.mem_range.1 hj
    have hneg : (-(t.L : Int) + j) < 0 := by omega
    simp only [row, if_pos hneg]
    congr 1
    simp only [N, added, hs, ht, if_true, Bool.false_eq_true, if_false]
    omega
  · simp [stateHist, ht, hs, r0]

/-- C69.  What is recorded for a column of the binary history is the track: the current value is the last row of the
track, the saved initial row is the first row of the track, the recorded rows are the other rows in order, and the rows
that were there before are kept. -/
theorem C69_binary_rows_partial {V : Type} (o : Ops V) (c : Cfg) (t : Track V) (n0 n : Nat) (name : String) (x : Cell V)
    (hc : c.track = true ∨ c.save = true) (hb : Rect t.bcol n) (hs : Rect (t.scol false) n)
    (l : List V) (a z : V) (hcol : t.bcol name = a :: (l ++ [z])) :
    updB o c t n0 (.col name) x =
      .ok ⟨z, x.hist ++ (if c.save then [a] else []) ++ (if c.track then a :: l else [])⟩ := by
  have hlb : t.lb = n := lb_eq t _ hb
  have hls : t.ls = n := ls_eq t _ hs
  have hbug : t.bug = false := by simp [Track.bug, hlb, hls]
  have hg : (!c.track && !c.save) = false := by rcases hc with h | h <;> simp [h]
  have e1 : (t.bcol name).getLast? = some z := by rw [hcol]; exact last_cons _ _ _
  have e2 : initRows (t.bcol name) = a :: l := by rw [hcol]; exact init_cons _ _ _
  simp only [updB, hg, Bool.false_eq_true, if_false, e1, e2, List.head?_cons, padB_eq _ _ _ _ _ hbug, grow]
  cases c.save <;> cases c.track <;> simp

/-- C69.  The same for the time, which continues from the time of the binary. -/
theorem C69_time_rows_partial {V : Type} (o : Ops V) (c : Cfg) (t : Track V) (n0 n : Nat) (name : String) (x : Cell V)
    (hc : c.track = true ∨ c.save = true) (hb : Rect t.bcol n) (hs : Rect (t.scol false) n)
    (l : List V) (a z : V) (hcol : t.bcol name = a :: (l ++ [z])) :
    updB o c t n0 (.time name) x =
      .ok ⟨o.add x.cur z, x.hist ++ (if c.save then [o.add x.cur a] else []) ++
        (if c.track then (a :: l).map (o.add x.cur) else [])⟩ := by
  have hlb : t.lb = n := lb_eq t _ hb
  have hls : t.ls = n := ls_eq t _ hs
  have hbug : t.bug = false := by simp [Track.bug, hlb, hls]
  have hg : (!c.track && !c.save) = false := by rcases hc with h | h <;> simp [h]
  have e1 : (t.bcol name).getLast? = some z := by rw [hcol]; exact last_cons _ _ _
  have e2 : initRows (t.bcol name) = a :: l := by rw [hcol]; exact init_cons _ _ _
  simp only [updB, hg, Bool.false_eq_true, if_false, e1, e2, List.head?_cons, padB_eq _ _ _ _ _ hbug, grow]
  cases c.save <;> cases c.track <;> simp

/-- C69.  For a star: columns of its own history are taken from its own history, masses and mass-loss rates from the
binary history, spin and radius of a compact object are computed row by row from its mass, everything else a compact
object has is kept. -/
theorem C69_star_rows_partial {V : Type} (o : Ops V) (c : Cfg) (t : Track V) (s : Bool) (n0 m n : Nat) (x : Cell V)
    (hc : c.track = true ∨ c.save = true) (hb : Rect t.bcol n) (hs : Rect (t.scol false) n)
    (name : String) (l : List V) (a z : V) :
    let ok (cur a : V) (rows : List V) : Except Err (Cell V) :=
      .ok ⟨cur, x.hist ++ (if c.save then [a] else []) ++ (if c.track then rows else [])⟩
    (t.scol s name = a :: (l ++ [z]) → updS o c t s n0 m (.col name) x = ok z a (a :: l)) ∧
    (t.bcol name = a :: (l ++ [z]) →
      updS o c t s n0 m (.binCol name) x = ok z a (a :: l) ∧
      updS o c t s n0 m (.coMass name) x = ok z a (a :: l) ∧
      updS o c t s n0 m (.coSpin name) x =
        ok (o.spin x.cur a z) (o.spin x.cur a a) ((a :: l).map (o.spin x.cur a)) ∧
      updS o c t s n0 m (.coLogR name) x = ok (o.logR z) (o.logR a) ((a :: l).map o.logR)) ∧
    updS o c t s n0 m .coKeep x = ok x.cur x.cur (List.replicate n x.cur) ∧
    updS o c t s n0 m .metallicity x = ok x.cur x.cur (List.replicate n x.cur) := by
  intro ok
  have hlb : t.lb = n := lb_eq t _ hb
  have hls : t.ls = n := ls_eq t _ hs
  have hL : t.L = n := by simp [Track.L, hlb, hls]
  have hbug : t.bug = false := by simp [Track.bug, hlb, hls]
  have hg : (!c.track && !c.save) = false := by rcases hc with h | h <;> simp [h]
  have e1 : (a :: (l ++ [z])).getLast? = some z := last_cons _ _ _
  have e2 : initRows (a :: (l ++ [z])) = a :: l := init_cons _ _ _
  refine ⟨fun h => ?_, fun h => ⟨?_, ?_, ?_, ?_⟩, ?_, ?_⟩
  all_goals
    simp only [updS, hg, Bool.false_eq_true, if_false, padS_eq _ _ _ _ _ _ hbug, grow, hL, ok]
    try simp only [h, e1, e2, List.head?_cons]
    cases c.save <;> cases c.track <;> simp

/-- C69.  The recorded times are not strictly increasing if the initial conditions are saved and the track is recorded:
the first row of the track is recorded twice, in all columns.  (Whether this counts as a violation depends on the
reading of the two options; it is what `flush_entries` relies on.) -/
theorem C69_first_row_twice {V : Type} (o : Ops V) (c : Cfg) (t : Track V) (n0 n : Nat) (name : String) (x : Cell V)
    (h1 : c.track = true) (h2 : c.save = true) (hb : Rect t.bcol n) (hs : Rect (t.scol false) n)
    (l : List V) (a z : V) (hcol : t.bcol name = a :: (l ++ [z])) (hx : x.hist.length = n0) :
    ∃ y, updB o c t n0 (.time name) x = .ok y ∧ y.hist[n0]? = some (o.add x.cur a) ∧
      y.hist[n0 + 1]? = some (o.add x.cur a) := by
  refine ⟨_, C69_time_rows_partial o c t n0 n name x (Or.inl h1) hb hs l a z hcol, ?_, ?_⟩
  · subst hx; simp [h1, h2]
  · subst hx; simp [h1, h2]

/-- C69.  Dropping the rows of the track afterwards (when they were needed only to find a point on the track) leaves the
rows that were there before and, if saved, the initial row: exactly what the step records without the track. -/
theorem C69_flush {V : Type} (c : Cfg) (h : List V) (a : V) (rows : List V) (h1 : c.track = true) :
    ∃ n, flushEntries c h.length = some n ∧
      (grow c h a rows).take n = grow { c with track := false } h a rows := by
  cases hs : c.save with
  | false =>
    refine ⟨h.length, by simp [flushEntries, h1, hs], ?_⟩
    simp [grow, h1, hs]
  | true =>
    refine ⟨h.length + 1, by simp [flushEntries, h1, hs], ?_⟩
    simp only [grow, h1, hs, if_true, Bool.false_eq_true, if_false]
    have : h.length + 1 = (h ++ [a]).length := by simp
    rw [this, List.take_left']
    rfl

/-- C69 is false if the binary history and the star history of a track differ in length (which the code announces to
handle): whenever the track is recorded, some column and the history of states differ in length afterwards. -/
theorem C69_unequal_violated {V : Type} (o : Ops V) (c : Cfg) (t : Track V) (n0 m nb ns : Nat) (hne : nb ≠ ns)
    (hnb : 0 < nb) (hns : 0 < ns) (h1 : c.track = true) (hb : Rect t.bcol nb) (hs : Rect (t.scol false) ns)
    (x : Cell V) (hx : x.hist.length = n0) (name : String) (row : Int → V) :
    (∃ y, updB o c t n0 (.col name) x = .ok y ∧ y.hist.length ≠ (stateHist o c t n0 row x.hist).length) ∨
    (∃ y, updS o c t false n0 m (.col name) x = .ok y ∧ y.hist.length ≠ (stateHist o c t n0 row x.hist).length) := by
  have hlb : t.lb = nb := lb_eq t _ hb
  have hls : t.ls = ns := ls_eq t _ hs
  have hL : t.L = min nb ns := by simp [Track.L, hlb, hls]
  have hlen := (C69_states_of_rows o c t n0 (fun _ => o.nan) x.hist hx).1
  have hlen' : (stateHist o c t n0 row x.hist).length = n0 + added c (min nb ns) := by
    rw [← hL]
    simp only [stateHist, added]
    cases c.save <;> cases c.track <;> cases c.flush <;> simp [hx] <;> omega
  rcases Nat.lt_or_gt_of_ne hne with h | h
  · right
    obtain ⟨z, a, hz, ha⟩ := ends _ ns (hs name) hns
    simp only [updS, h1, Bool.not_true, Bool.false_and, Bool.false_eq_true, if_false, hz, ha]
    refine ⟨_, rfl, ?_⟩
    rw [hlen']
    have hg := grow_length c x.hist (id a) ((initRows (t.scol false name)).map id)
    rw [List.length_map, initRows_length _ ns (hs name), hx] at hg
    have hge : (grow c x.hist (id a) ((initRows (t.scol false name)).map id)).length ≤
        (padS o c t n0 m (grow c x.hist (id a) ((initRows (t.scol false name)).map id))).length := by
      unfold padS
      split_ifs <;> simp
    simp only [added, h1, if_true] at hg ⊢
    omega
  · left
    obtain ⟨z, a, hz, ha⟩ := ends _ nb (hb name) hnb
    simp only [updB, h1, Bool.not_true, Bool.false_and, Bool.false_eq_true, if_false, hz, ha]
    refine ⟨_, rfl, ?_⟩
    rw [hlen']
    have hg := grow_length c x.hist a (initRows (t.bcol name))
    rw [initRows_length _ nb (hb name), hx] at hg
    have hge : (grow c x.hist a (initRows (t.bcol name))).length ≤
        (padB o c t n0 (grow c x.hist a (initRows (t.bcol name)))).length := by
      unfold padB
      split_ifs <;> simp
    simp only [added, h1, if_true] at hg ⊢
    omega

/-- C69.  Without saved initial conditions the histories of the binary keep the same length even if the binary history and
the star histories of the track differ in length: short ones are filled up with NaN. -/
theorem C69_filled_up_partial {V : Type} (o : Ops V) (c : Cfg) (t : Track V) (n0 nb ns : Nat) (k : BKind) (x y : Cell V)
    (hne : nb ≠ ns) (h1 : c.track = true) (h2 : c.save = false) (hb : Rect t.bcol nb) (hs : Rect (t.scol false) ns)
    (hx : x.hist.length = n0) (h : updB o c t n0 k x = .ok y) : y.hist.length = n0 + max nb ns := by
  have hlb : t.lb = nb := lb_eq t _ hb
  have hls : t.ls = ns := ls_eq t _ hs
  have hL : t.L = min nb ns := by simp [Track.L, hlb, hls]
  have hbug : t.bug = true := by simp [Track.bug, hlb, hls, hne]
  have key : ∀ (a : V) (rows : List V), rows.length ≤ max nb ns →
      (padB o c t n0 (grow c x.hist a rows)).length = n0 + max nb ns := by
    intro a rows hr
    have hg := grow_length c x.hist a rows
    simp only [added, h1, h2, if_true, Bool.false_eq_true, if_false, hx] at hg
    simp only [padB, h1, hbug, Bool.and_self, if_true, List.length_append, List.length_replicate, missing, hlb, hls]
    omega
  have hi : ∀ name, (initRows (t.bcol name)).length = nb := fun name => initRows_length _ nb (hb name)
  simp only [updB, h1, Bool.not_true, Bool.false_and, Bool.false_eq_true, if_false] at h
  cases k with
  | unmapped =>
    obtain rfl := Except.ok.inj h
    exact key _ _ (by simp [hL])
  | dist =>
    obtain rfl := Except.ok.inj h
    exact key _ _ (by simp [hL])
  | keep =>
    dsimp only at h
    cases hz : x.hist.getLast? with
    | none => rw [hz] at h; simp at h
    | some v =>
      rw [hz] at h
      obtain rfl := Except.ok.inj h
      exact key _ _ (by simp [hL])
  | time name =>
    dsimp only at h
    cases hz : (t.bcol name).getLast? with
    | none => rw [hz] at h; simp at h
    | some z =>
      cases ha : (initRows (t.bcol name)).head? with
      | none => rw [hz, ha] at h; simp at h
      | some a =>
        rw [hz, ha] at h
        obtain rfl := Except.ok.inj h
        exact key _ _ (by rw [List.length_map, hi name]; omega)
  | col name =>
    dsimp only at h
    cases hz : (t.bcol name).getLast? with
    | none => rw [hz] at h; simp at h
    | some z =>
      cases ha : (initRows (t.bcol name)).head? with
      | none => rw [hz, ha] at h; simp at h
      | some a =>
        rw [hz, ha] at h
        obtain rfl := Except.ok.inj h
        exact key _ _ (by rw [hi name]; omega)

/-- C69 is false with saved initial conditions and a binary history longer than the star histories: the filling up does not
count the saved row, and histories of the binary differ in length by one. -/
theorem C69_filled_up_violated {V : Type} (o : Ops V) (c : Cfg) (t : Track V) (n0 nb ns : Nat) (x : Cell V) (name : String)
    (hlt : ns < nb) (hns : 0 < ns) (h1 : c.track = true) (h2 : c.save = true) (hb : Rect t.bcol nb)
    (hs : Rect (t.scol false) ns) (hx : x.hist.length = n0) :
    ∃ y z, updB o c t n0 .unmapped x = .ok y ∧ updB o c t n0 (.col name) x = .ok z ∧
      y.hist.length = n0 + nb ∧ z.hist.length = n0 + nb + 1 := by
  have hlb : t.lb = nb := lb_eq t _ hb
  have hls : t.ls = ns := ls_eq t _ hs
  have hL : t.L = ns := by simp [Track.L, hlb, hls]; omega
  have hbug : t.bug = true := by simp [Track.bug, hlb, hls]; omega
  obtain ⟨z, a, hz, ha⟩ := ends _ nb (hb name) (by omega)
  simp only [updB, h1, Bool.not_true, Bool.false_and, Bool.false_eq_true, if_false, hz, ha]
  refine ⟨_, _, rfl, rfl, ?_, ?_⟩
  · have hg := grow_length c x.hist o.none (List.replicate t.L o.none)
    simp only [added, h1, h2, if_true, hx, List.length_replicate, hL] at hg
    simp only [padB, h1, hbug, Bool.and_self, if_true, List.length_append, List.length_replicate, missing, hlb, hls, hL]
    omega
  · have hg := grow_length c x.hist a (initRows (t.bcol name))
    simp only [added, h1, h2, if_true, hx, initRows_length _ nb (hb name)] at hg
    simp only [padB, h1, hbug, Bool.and_self, if_true, List.length_append, List.length_replicate, missing, hlb, hls]
    omega

/-! ### Accretion onto a compact object -/

/-- C69.  The current accretion rate of a compact object, and the saved initial one, is the smaller of the rate and the
Eddington rate. -/
theorem C69_eddington_current (rate edd : ℝ) (hr : 0 < rate) (he : 0 < edd) :
    (10 : ℝ) ^ (accNow rate edd) = min rate edd ∧ accFirst rate edd = accNow rate edd := by
  have h10 : (10 : ℝ) ^ Real.logb 10 rate = rate := Real.rpow_logb (by norm_num) (by norm_num) hr
  have h10' : (10 : ℝ) ^ Real.logb 10 edd = edd := Real.rpow_logb (by norm_num) (by norm_num) he
  refine ⟨?_, rfl⟩
  simp only [accNow, h10]
  by_cases h : rate > edd
  · rw [if_pos h, h10', min_eq_right (le_of_lt h)]
  · rw [if_neg h, h10, min_eq_left (not_lt.1 h)]

/-- C69 is false for the recorded rows: the logarithm of the rate is compared with the Eddington rate itself.  For every
Eddington rate below one solar mass per year (they are of the order of 1e-8) every rate between the Eddington rate and
one solar mass per year is recorded unchanged. -/
theorem C69_eddington_history_violated (rate edd : ℝ) (he : 0 < edd) (h1 : edd < rate) (h2 : rate ≤ 1) :
    accHist rate edd = Real.logb 10 rate ∧ edd < (10 : ℝ) ^ (accHist rate edd) := by
  have hr : 0 < rate := lt_trans he h1
  have h10 : (10 : ℝ) ^ Real.logb 10 rate = rate := Real.rpow_logb (by norm_num) (by norm_num) hr
  have hle : Real.logb 10 rate ≤ 0 := Real.logb_nonpos (by norm_num) hr.le h2
  have : accHist rate edd = Real.logb 10 rate := by
    simp only [accHist]
    rw [if_neg (not_lt.2 (le_trans hle he.le))]
  exact ⟨this, by rw [this, h10]; exact h1⟩

/-- A concrete track of three rows, recorded with saved initial conditions after one earlier row. -/
def exTrack : Track Nat :=
  ⟨fun _ => [10, 20, 30], fun s _ => if s then [1, 2, 3] else [4, 5, 6], fun _ => 99, 7⟩

def exOps : Ops Nat := ⟨0, 1000, (· + ·), fun s a b => s + b - a, fun m => 2 * m⟩

example : Rect exTrack.bcol 2 ∧ Rect (exTrack.scol false) 2 ∧ Rect (exTrack.scol true) 2 ∧
    (updB exOps ⟨true, true, false⟩ exTrack 1 (.time "age") ⟨5, [5]⟩).toOption.map (fun y => (y.cur, y.hist)) =
      some (35, [5, 15, 15, 25]) ∧
    (updS exOps ⟨false, true, false⟩ exTrack true 1 0 (.col "log_R") ⟨8, [8]⟩).toOption.map (fun y => (y.cur, y.hist)) =
      some (3, [8, 1]) :=
  ⟨fun _ => rfl, fun _ => rfl, fun _ => rfl, by decide, by decide⟩

/-- What a grid does not change - eccentricity and velocity of the binary - stays what it was at the last record. -/
theorem C69_kept {V : Type} (o : Ops V) (c : Cfg) (t : Track V) (n0 : Nat) (x : Cell V) (v : V) (h : c.track = true ∨ c.save = true)
    (hv : x.hist.getLast? = some v) : ∃ y, updB o c t n0 .keep x = .ok y ∧ y.cur = v := by
  unfold updB
  rw [if_neg (by rcases h with h | h <;> simp [h])]
  dsimp only
  rw [hv]
  exact ⟨_, rfl, rfl⟩

/-- A binary without records, or a track without rows, cannot be used. -/
theorem C69_missing {V : Type} (o : Ops V) (c : Cfg) (t : Track V) (n0 : Nat) (x : Cell V) (name : String) (h : c.track = true ∨ c.save = true) :
    (x.hist = [] → updB o c t n0 .keep x = .error .index) ∧
    (t.bcol name = [] → updB o c t n0 (.col name) x = .error .index ∧ updB o c t n0 (.time name) x = .error .index) := by
  have hc : ¬ (!c.track && !c.save) = true := by rcases h with h | h <;> simp [h]
  unfold updB
  rw [if_neg hc, if_neg hc, if_neg hc]
  exact ⟨fun e => by simp [e], fun e => by simp [e]⟩

end Verif.MesaTrack
