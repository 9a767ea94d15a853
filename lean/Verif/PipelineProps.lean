import Verif.Pipeline

/-!
# C105: the jobs of the post-processing pipeline and what they wait for
-/

namespace Verif.Pipeline

variable {V : Type} {build : Job → Sect V → List File → Except Err (List File)}
  {t : Sets} {p : Ini V}

/-! ### Expanding the sets -/

theorem expand_nil (sets : List (Name × List Name)) : expand sets [] = [] := by
  induction sets with
  | nil => rfl
  | cons s r ih =>
    show expand r (if s.1 ∈ ([] : List Name) then ([] : List Name).erase s.1 ++ s.2 else []) = []
    rw [if_neg (by simp)]
    exact ih

theorem filter_erase {α : Type} [BEq α] [LawfulBEq α] [DecidableEq α] (q : α → Bool) (x : α) (hq : q x = false) :
    ∀ l : List α, (l.erase x).filter q = l.filter q
  | [] => rfl
  | y :: l => by
      by_cases h : y = x
      · subst h
        rw [List.erase_cons_head, List.filter_cons_of_neg (by simp [hq])]
      · rw [List.erase_cons_tail (by simpa using h)]
        by_cases hy : q y = true
        · rw [List.filter_cons_of_pos hy, List.filter_cons_of_pos hy, filter_erase q x hq l]
        · rw [List.filter_cons_of_neg hy, List.filter_cons_of_neg hy, filter_erase q x hq l]

/-- **Sets are replaced by their content.**  As long as the list names no set twice, what
is left are the entries that are no sets, in their order, followed by the content of
the named sets: nothing that was asked for is lost and no name of a set is left. -/
theorem C105_expand (all : List Name) :
    ∀ (sets : List (Name × List Name)) (l : List Name),
      (∀ s ∈ sets, s.1 ∈ all) → (∀ s ∈ sets, ∀ x ∈ s.2, x ∉ all) →
      (sets.map (·.1)).Nodup → (∀ s ∈ sets, l.count s.1 ≤ 1) →
      expand sets l = l.filter (fun x => x ∉ sets.map (·.1)) ++
        (sets.filter fun s => s.1 ∈ l).flatMap (·.2)
  | [], l, _, _, _, _ => by simp [expand]
  | s :: r, l, ha, hc, hn, h1 => by
      have hr : s.1 ∉ r.map (·.1) := (List.nodup_cons.1 hn).1
      have hne : ∀ u ∈ r, u.1 ≠ s.1 := fun u hu h => hr (h ▸ List.mem_map_of_mem hu)
      have hall : ∀ u ∈ s :: r, u.1 ∉ s.2 := fun u hu hm =>
        hc s (by simp) u.1 hm (ha u hu)
      show expand r (if s.1 ∈ l then l.erase s.1 ++ s.2 else l) = _
      by_cases hs : s.1 ∈ l
      · rw [if_pos hs]
        rw [C105_expand all r _ (fun u hu => ha u (by simp [hu]))
          (fun u hu => hc u (by simp [hu])) (List.nodup_cons.1 hn).2]
        · rw [List.filter_append, List.filter_cons_of_pos (by simpa using hs)]
          have e1 : s.2.filter (fun x => x ∉ r.map (·.1)) = s.2 := by
            rw [List.filter_eq_self]
            intro x hx
            simp only [decide_eq_true_eq]
            intro hm
            obtain ⟨u, hu, rfl⟩ := List.mem_map.1 hm
            exact hall u (by simp [hu]) hx
          have e2 : (l.erase s.1).filter (fun x => x ∉ r.map (·.1)) =
              l.filter (fun x => x ∉ (s :: r).map (·.1)) := by
            have h0 : s.1 ∉ l.erase s.1 := by
              intro hm
              have := List.count_pos_iff.2 hm
              rw [List.count_erase_self] at this
              have := h1 s (by simp)
              omega
            rw [← filter_erase (fun x => x ∉ (s :: r).map (·.1)) s.1 (by simp) l]
            apply List.filter_congr
            intro x hx
            have : x ≠ s.1 := fun h => h0 (h ▸ hx)
            simp [this]
          have e3 : (r.filter fun u => u.1 ∈ l.erase s.1 ++ s.2) =
              r.filter fun u => u.1 ∈ l := by
            apply List.filter_congr
            intro u hu
            have : u.1 ∉ s.2 := hall u (by simp [hu])
            simp [this, List.mem_erase_of_ne (hne u hu)]
          rw [e1, e2, e3]
          simp
        · intro u hu
          rw [List.count_append, List.count_erase_of_ne (hne u hu),
            List.count_eq_zero_of_not_mem (hall u (by simp [hu]))]
          exact h1 u (by simp [hu])
      · rw [if_neg hs]
        rw [C105_expand all r l (fun u hu => ha u (by simp [hu]))
          (fun u hu => hc u (by simp [hu])) (List.nodup_cons.1 hn).2
          (fun u hu => h1 u (by simp [hu]))]
        rw [List.filter_cons_of_neg (by simpa using hs)]
        congr 1
        apply List.filter_congr
        intro x hx
        have : x ≠ s.1 := fun h => hs (h ▸ hx)
        simp [this]

/-- The tables of the script meet the conditions, whatever the supernova models are
called. -/
theorem C105_tables (ms : List Name) :
    ((plottingSets ms).map (·.1)).Nodup ∧
    (∀ s ∈ plottingSets ms, ∀ x ∈ s.2, x ∉ (plottingSets ms).map (·.1)) ∧
    (checkingSets.map (·.1)).Nodup ∧
    (∀ s ∈ checkingSets, ∀ x ∈ s.2, x ∉ checkingSets.map (·.1)) := by
  have names : (plottingSets ms).map (·.1) = [(chars! "PLOT_AFTER_CREATE"),
      (chars! "PLOT_AFTER_COMBINE"), (chars! "PLOT_AFTER_EXTRA"), (chars! "PLOT_AFTER_TRAINING"),
      (chars! "PLOT_AFTER_PROFILE_TRAINING")] := rfl
  refine ⟨by rw [names]; decide, ?_, by decide, by decide⟩
  have key : ∀ x ∈ (plottingSets ms).map (·.1), x.head? = some 'P' := by
    rw [names]
    decide
  intro s hs x hx hm
  have hP := key x hm
  simp only [plottingSets, List.mem_cons, List.not_mem_nil, or_false] at hs
  rcases hs with rfl | rfl | rfl | rfl | rfl
  · simp at hx
  · have : ∀ y ∈ ([(chars! "combined_TF12"), (chars! "termination_flag_1"),
      (chars! "termination_flag_2"), (chars! "termination_flag_3"),
      (chars! "termination_flag_4"), (chars! "rl_relative_overflow_1"),
      (chars! "rl_relative_overflow_2"), (chars! "lg_mtransfer_rate")] : List Name),
      y.head? ≠ some 'P' := by decide
    exact this x hx hP
  · simp only [List.mem_flatMap, List.mem_map] at hx
    obtain ⟨m, _, q, _, rfl⟩ := hx
    simp at hP
  · rw [List.mem_map] at hx
    obtain ⟨q, _, rfl⟩ := hx
    simp at hP
  · simp at hx

/-- **A set that is named twice is not resolved**: one occurrence of the name stays in the list of
plots, as if it were the name of a quantity. -/
theorem C105_twice_violated (ms : List Name) :
    (chars! "PLOT_AFTER_COMBINE") ∈ expand (plottingSets ms)
      [(chars! "PLOT_AFTER_COMBINE"), (chars! "PLOT_AFTER_COMBINE")] := by
  have h : expand (plottingSets ms)
      [(chars! "PLOT_AFTER_COMBINE"), (chars! "PLOT_AFTER_COMBINE")] =
      (chars! "PLOT_AFTER_COMBINE") ::
        [(chars! "combined_TF12"), (chars! "termination_flag_1"),
      (chars! "termination_flag_2"), (chars! "termination_flag_3"),
      (chars! "termination_flag_4"), (chars! "rl_relative_overflow_1"),
      (chars! "rl_relative_overflow_2"), (chars! "lg_mtransfer_rate")] := rfl
  rw [h]
  exact List.mem_cons_self

/-- `MAKE_PLOTS = False` and `MAKE_CHECKS = False` switch all plots and checks off. -/
theorem C105_switches (c : Sect V) :
    (p.makePlots = false → hasOne (tidy t p c).plots = false) ∧
    (p.makeChecks = false → hasOne (tidy t p c).checks = false) := by
  constructor
  · intro h
    cases hc : c.plots <;> simp [tidy, hc, h, hasOne]
  · intro h
    cases hc : c.checks <;> simp [tidy, hc, h, hasOne]

/-! ### The loop -/

theorem blocks_snoc (t : Sets) (p : Ini V) (k : Step) : ∀ (ks done : List Step),
    blocks t p done (ks ++ [k]) = blocks t p done ks ++ block t p (done ++ ks) k
  | [], done => by simp [blocks]
  | i :: ks, done => by
      show block t p done i ++ blocks t p (done ++ [i]) (ks ++ [k]) = _
      rw [blocks_snoc t p k ks (done ++ [i])]
      simp [blocks]

theorem prior_snoc_pos {done : List Step} {k : Step} (h : p.want k = true) :
    prior p (done ++ [k]) = some k := by
  unfold prior
  rw [List.filter_append, List.filter_cons_of_pos h]
  simp

theorem prior_snoc_neg {done : List Step} {k : Step} (h : p.want k = false) :
    prior p (done ++ [k]) = prior p done := by
  unfold prior
  rw [List.filter_append, List.filter_cons_of_neg (by simp [h])]
  simp

theorem fill_ok {prev : Option (Sect V)} {c c' : Sect V} (h : fill prev c = .ok c') :
    c'.plots = c.plots ∧ c'.checks = c.checks ∧
    (∀ a, c'.attr a = (c.attr a).or (prev.bind fun d => d.attr a)) ∧
    ∀ a, (c'.attr a).isSome := by
  unfold fill at h
  split_ifs at h with hs
  cases h
  exact ⟨rfl, rfl, fun _ => rfl, hs⟩

/-- What holds when the steps `done` have been dealt with. -/
structure Inv (t : Sets) (p : Ini V) (done : List Step) (s : St V) : Prop where
  /-- the other sections are untouched -/
  sec : ∀ i, i ∉ done → s.sec i = p.sec i
  /-- `last_step` is the last requested step -/
  last : s.last = prior p done
  /-- the lines are the jobs there should be -/
  lines : s.lines.map (fun l => (l.job, l.dep)) = blocks t p [] done
  /-- the last requested step has all attributes, as meant -/
  attr : ∀ k, s.last = some k → ∃ c, s.sec k = some c ∧ ∀ a, (c.attr a).isSome ∧
    c.attr a = (done.filter fun i => p.want i).reverse.findSome?
      fun i => (p.sec i).bind fun c => c.attr a
  /-- every job got the attributes that are meant -/
  kw : ∀ l ∈ s.lines, ∃ d, d ++ [stepOf l.job] <+: done ∧
    ∀ a, (l.kw.attr a).isSome ∧ l.kw.attr a = meant p d (stepOf l.job) a
  /-- every job was made with the plots and checks of its section -/
  quant : ∀ l ∈ s.lines, ∃ c, p.sec (stepOf l.job) = some c ∧
    l.kw.plots = (tidy t p c).plots ∧ l.kw.checks = (tidy t p c).checks
  /-- `step_kwargs` is assigned as soon as there is a line -/
  cur : s.cur = none ↔ ∀ k ∈ done, p.want k = false ∧
    ∀ c, p.sec k = some c → hasSub c = false
  /-- all sections were there -/
  all : ∀ k ∈ done, (p.sec k).isSome

theorem inv_start : Inv t p [] (start p) where
  sec := fun _ _ => rfl
  last := rfl
  lines := rfl
  attr := fun k h => by cases h
  kw := fun l h => by cases h
  quant := fun l h => by cases h
  cur := ⟨fun _ k hk => (by cases hk), fun _ => rfl⟩
  all := fun k hk => by cases hk

theorem emit_pairs (j : Job) (d : Option Job) (c : Sect V) (kn out : List File) :
    (emit j d c kn out).map (fun l => (l.job, l.dep)) =
      (j, d) :: (if cleans j then [(.clean j, some j)] else []) := by
  unfold emit
  by_cases h : cleans j = true
  · rw [if_pos h, if_pos h]; rfl
  · rw [if_neg h, if_neg h]; rfl

theorem mem_emit {j : Job} {d : Option Job} {c : Sect V} {kn out : List File} {l : Line V}
    (h : l ∈ emit j d c kn out) : l.kw = c ∧ l.known = kn ∧
      ((l.job = j ∧ l.dep = d ∧ l.out = out) ∨
       (l.job = .clean j ∧ l.dep = some j ∧ l.out = [])) := by
  unfold emit at h
  rcases List.mem_cons.1 h with rfl | h
  · exact ⟨rfl, rfl, Or.inl ⟨rfl, rfl, rfl⟩⟩
  · by_cases hc : cleans j = true
    · rw [if_pos hc] at h
      obtain rfl := List.mem_singleton.1 h
      exact ⟨rfl, rfl, Or.inr ⟨rfl, rfl, rfl⟩⟩
    · rw [if_neg hc] at h; cases h

theorem step_emit {j : Job} {d : Option Job} {c : Sect V} {kn out : List File} {l : Line V}
    (h : l ∈ emit j d c kn out) : stepOf l.job = stepOf j := by
  rcases (mem_emit h).2.2 with ⟨h, _⟩ | ⟨h, _⟩ <;> rw [h]
  rfl

/-- What one pass does, in one piece. -/
theorem pass_lines {k : Step} {s s' : St V} (h : pass build t p k s = .ok s')
    {c0 : Sect V} (hk : s.sec k = some c0) (ho : ∀ d, s.last = some d → d ≠ k) :
    ((p.want k = false ∧ hasSub c0 = false ∧ s' = s) ∨
     ((p.want k = true ∨ hasSub c0 = true) ∧ ∃ c', fill (s.last.bind s.sec) c0 = .ok c' ∧
      ∃ fm fp fc : List File,
      s'.sec = (fun i => if i = k then some (tidy t p c') else s.sec i) ∧
      s'.last = (if p.want k then some k else s.last) ∧
      s'.cur = some (tidy t p c') ∧
      (p.want k = true → build (.main k) (tidy t p c') s.made = .ok fm) ∧
      s'.made = s.made ++ (if p.want k then fm else []) ∧
      s'.lines = s.lines ++
        (if p.want k then emit (.main k) (s.last.map .main) (tidy t p c') s.made fm else []) ++
        (if hasOne (tidy t p c').plots then
          emit (.plots k) (s'.last.map .main) (tidy t p c') s'.made fp else []) ++
        (if hasOne (tidy t p c').checks then
          emit (.checks k) (s'.last.map .main) (tidy t p c') s'.made fc else []))) := by
  obtain ⟨s1, s2, s3, h1, h2, h3, h4⟩ := pass_ok h
  obtain ⟨c, hc, he⟩ := enter_ok h1
  rw [hk] at hc
  cases hc
  rcases he with ⟨hw, hs, rfl⟩ | ⟨hw, c', hf, rfl⟩
  · left
    refine ⟨hw, hs, ?_⟩
    simp only [hasSub, Bool.or_eq_false_iff] at hs
    rcases doMain_ok h2 with ⟨_, rfl⟩ | ⟨hw', _⟩
    · rw [hk] at h3
      rcases doSub_ok h3 with ⟨_, rfl⟩ | ⟨hp, _⟩
      · rw [hk] at h4
        rcases doSub_ok h4 with ⟨_, rfl⟩ | ⟨hp, _⟩
        · rfl
        · rw [show hasOne ((some c0).bind (·.checks)) = hasOne c0.checks from rfl, hs.2] at hp
          cases hp
      · rw [show hasOne ((some c0).bind (·.plots)) = hasOne c0.plots from rfl, hs.1] at hp
        cases hp
    · rw [hw] at hw'; cases hw'
  · right
    refine ⟨hw, c', hf, ?_⟩
    have hcur : s2.cur = some (tidy t p c') ∧ s2.sec = (fun i => if i = k then
        some (tidy t p c') else s.sec i) ∧
        s2.last = (if p.want k then some k else s.last) ∧ ∃ fm,
        (p.want k = true → build (.main k) (tidy t p c') s.made = .ok fm) ∧
        s2.made = s.made ++ (if p.want k then fm else []) ∧
        s2.lines = s.lines ++ (if p.want k then
          emit (.main k) (s.last.map .main) (tidy t p c') s.made fm else []) := by
      rcases doMain_ok h2 with ⟨hw', rfl⟩ | ⟨hw', d, fs, hd, hb, rfl⟩
      · exact ⟨rfl, rfl, by rw [if_neg (by simp [hw'])], [],
          (fun h => absurd (hw'.symm.trans h) (by decide)),
          (by rw [if_neg (by simp [hw'])]; simp), (by rw [if_neg (by simp [hw'])]; simp)⟩
      · have hd' : tidy t p c' = d := Option.some.inj hd
        subst hd'
        exact ⟨rfl, rfl, by rw [if_pos hw'], fs, fun _ => hb, by rw [if_pos hw'],
          by rw [if_pos hw']⟩
    obtain ⟨hcur, hsec, hlast, fm, hfm, hmade, hlines⟩ := hcur
    have hsk : s2.sec k = some (tidy t p c') := by rw [hsec]; exact if_pos rfl
    rw [hsk] at h3
    have h3' : ∃ fp, s3.sec = s2.sec ∧ s3.last = s2.last ∧ s3.cur = s2.cur ∧
        s3.made = s2.made ∧ s3.lines = s2.lines ++ (if hasOne (tidy t p c').plots then
          emit (.plots k) (s2.last.map .main) (tidy t p c') s2.made fp else []) := by
      rcases doSub_ok h3 with ⟨hn, rfl⟩ | ⟨hn, d, fs, hd, _, rfl⟩
      · refine ⟨[], rfl, rfl, rfl, rfl, ?_⟩
        rw [if_neg (by rw [show hasOne (tidy t p c').plots = false from hn]; simp)]
        simp
      · rw [hcur] at hd
        cases hd
        exact ⟨fs, rfl, rfl, rfl, rfl, by rw [if_pos (show hasOne (tidy t p c').plots = true
          from hn)]⟩
    obtain ⟨fp, e1, e2, e3, e4, e5⟩ := h3'
    rw [e1, hsk] at h4
    have h4' : ∃ fc, s'.sec = s3.sec ∧ s'.last = s3.last ∧ s'.cur = s3.cur ∧
        s'.made = s3.made ∧ s'.lines = s3.lines ++ (if hasOne (tidy t p c').checks then
          emit (.checks k) (s3.last.map .main) (tidy t p c') s3.made fc else []) := by
      rcases doSub_ok h4 with ⟨hn, rfl⟩ | ⟨hn, d, fs, hd, _, rfl⟩
      · refine ⟨[], rfl, rfl, rfl, rfl, ?_⟩
        rw [if_neg (by rw [show hasOne (tidy t p c').checks = false from hn]; simp)]
        simp
      · rw [e3, hcur] at hd
        cases hd
        exact ⟨fs, rfl, rfl, rfl, rfl, by rw [if_pos (show hasOne (tidy t p c').checks = true
          from hn)]⟩
    obtain ⟨fc, g1, g2, g3, g4, g5⟩ := h4'
    refine ⟨fm, fp, fc, by rw [g1, e1, hsec], by rw [g2, e2, hlast], by rw [g3, e3, hcur], hfm,
      by rw [g4, e4, hmade], ?_⟩
    rw [g5, e5, hlines, g2, e2, g4, e4]

theorem hasOne_tidy {c : Sect V} : (hasOne c.plots = false → hasOne (tidy t p c).plots = false) ∧
    (hasOne c.checks = false → hasOne (tidy t p c).checks = false) := by
  constructor
  · intro h
    cases hc : c.plots with
    | none => simp [tidy, hc, hasOne]
    | some l =>
      cases l with
      | nil => simp [tidy, hc, expand_nil, hasOne]
      | cons x l => rw [hc] at h; cases h
  · intro h
    cases hc : c.checks with
    | none => simp [tidy, hc, hasOne]
    | some l =>
      cases l with
      | nil => simp [tidy, hc, expand_nil, hasOne]
      | cons x l => rw [hc] at h; cases h

theorem inv_pass (done : List Step) (k : Step) (s s' : St V) (hk : k ∉ done)
    (I : Inv t p done s) (h : pass build t p k s = .ok s') : Inv t p (done ++ [k]) s' := by
  have hlast : ∀ d, s.last = some d → d ≠ k := by
    intro d hd he
    rw [I.last] at hd
    have := List.mem_of_getLast? hd
    rw [List.mem_filter] at this
    exact hk (he ▸ this.1)
  obtain ⟨c0, hc0, -⟩ := enter_ok (pass_ok h).choose_spec.choose_spec.choose_spec.1
  have hp0 : p.sec k = some c0 := by rw [← I.sec k hk]; exact hc0
  rcases pass_lines h hc0 hlast with ⟨hw, hs, rfl⟩ | ⟨hw, c', hf, fm, fp, fc, e1, e2, e3, -, -, e5⟩
  · have hs' := hs
    simp only [hasSub, Bool.or_eq_false_iff] at hs'
    have hask : asked t p k = (false, false) := by
      simp only [asked, hp0, (hasOne_tidy).1 hs'.1, (hasOne_tidy).2 hs'.2]
    refine ⟨fun i hi => I.sec i (fun hm => hi (by simp [hm])), ?_, ?_, ?_, ?_, I.quant, ?_, ?_⟩
    · rw [prior_snoc_neg hw, I.last]
    · rw [blocks_snoc, I.lines]
      have hb : block t p ([] ++ done) k = [] := by
        simp [block, hask, hw]
      rw [hb, List.append_nil]
    · intro d hd
      obtain ⟨c, hc, ha⟩ := I.attr d hd
      refine ⟨c, hc, ?_⟩
      rw [List.filter_append, List.filter_cons_of_neg (by simp [hw]), List.filter_nil,
        List.append_nil]
      exact ha
    · intro l hl
      obtain ⟨d, hd, ha⟩ := I.kw l hl
      exact ⟨d, hd.trans (List.prefix_append _ _), ha⟩
    · rw [I.cur]
      constructor
      · intro h i hi
        rcases List.mem_append.1 hi with hi | hi
        · exact h i hi
        · obtain rfl := List.mem_singleton.1 hi
          refine ⟨hw, fun c hc => ?_⟩
          rw [hp0] at hc; cases hc; exact hs
      · intro h i hi
        exact h i (by simp [hi])
    · intro i hi
      rcases List.mem_append.1 hi with hi | hi
      · exact I.all i hi
      · obtain rfl := List.mem_singleton.1 hi
        simp [hp0]
  · obtain ⟨f1, f2, f3, f4⟩ := fill_ok hf
    have ht : (tidy t p c').plots = (tidy t p c0).plots ∧
        (tidy t p c').checks = (tidy t p c0).checks := by
      simp only [tidy, f1, f2, and_self]
    have hask : asked t p k = (hasOne (tidy t p c').plots, hasOne (tidy t p c').checks) := by
      simp only [asked, hp0, ht]
    have hl' : s'.last = prior p (done ++ [k]) := by
      rw [e2]
      by_cases hw' : p.want k = true
      · rw [if_pos hw', prior_snoc_pos hw']
      · rw [if_neg hw', prior_snoc_neg (by simpa using hw'), I.last]
    -- the attributes of the step are those meant
    have hattr : ∀ a, c'.attr a = meant p done k a := by
      intro a
      rw [f3]
      unfold meant
      rw [List.findSome?_cons, hp0]
      show (c0.attr a).or _ = match c0.attr a with | some b => some b | none => _
      cases hca : c0.attr a with
      | some v => rfl
      | none =>
        show (s.last.bind s.sec).bind (fun d => d.attr a) = _
        cases hl : s.last with
        | none =>
          rw [I.last] at hl
          have hnil : done.filter (fun i => p.want i) = [] := by
            unfold prior at hl
            exact List.getLast?_eq_none_iff.1 hl
          rw [hnil]
          rfl
        | some d =>
          obtain ⟨c, hc, ha⟩ := I.attr d hl
          show (s.sec d).bind (fun d => d.attr a) = _
          rw [hc]
          exact (ha a).2
    have hta : ∀ a, (tidy t p c').attr a = c'.attr a := fun _ => rfl
    have hnew : ∀ l ∈ s'.lines, l ∈ s.lines ∨ (stepOf l.job = k ∧ l.kw = tidy t p c') := by
      intro l hl
      rw [e5] at hl
      simp only [List.mem_append] at hl
      rcases hl with ((hl | hl) | hl) | hl
      · exact Or.inl hl
      all_goals
        right
        split_ifs at hl
        · exact ⟨step_emit hl, (mem_emit hl).1⟩
        · cases hl
    refine ⟨?_, hl', ?_, ?_, ?_, ?_, ?_, ?_⟩
    · intro i hi
      have hik : i ≠ k := fun h => hi (by simp [h])
      rw [e1]
      show (if i = k then _ else s.sec i) = _
      rw [if_neg hik]
      exact I.sec i (fun hm => hi (by simp [hm]))
    · rw [e5, blocks_snoc, ← I.lines]
      simp only [List.map_append, List.append_assoc]
      congr 1
      simp only [block, List.nil_append, List.append_assoc]
      rw [hask, hl', I.last]
      dsimp only
      congr 1
      · by_cases hw' : p.want k = true
        · rw [if_pos hw', if_pos hw', emit_pairs]
        · rw [if_neg hw', if_neg hw']; rfl
      · congr 1
        · by_cases hw' : hasOne (tidy t p c').plots = true
          · rw [if_pos hw', if_pos hw', emit_pairs]
          · rw [if_neg hw', if_neg hw']; rfl
        · by_cases hw' : hasOne (tidy t p c').checks = true
          · rw [if_pos hw', if_pos hw', emit_pairs]
          · rw [if_neg hw', if_neg hw']; rfl
    · intro d hd
      rw [e2] at hd
      by_cases hw' : p.want k = true
      · rw [if_pos hw'] at hd
        cases hd
        refine ⟨tidy t p c', by rw [e1]; exact if_pos rfl, fun a => ⟨f4 a, ?_⟩⟩
        rw [hta, hattr, List.filter_append, List.filter_cons_of_pos hw']
        simp [meant]
      · rw [if_neg hw'] at hd
        obtain ⟨c, hc, ha⟩ := I.attr d hd
        refine ⟨c, ?_, ?_⟩
        · rw [e1]
          show (if d = k then _ else s.sec d) = _
          rw [if_neg (hlast d hd), hc]
        · rw [List.filter_append, List.filter_cons_of_neg hw', List.filter_nil, List.append_nil]
          exact ha
    · intro l hl
      rcases hnew l hl with hl | ⟨hs, hkw⟩
      · obtain ⟨d, hd, ha⟩ := I.kw l hl
        exact ⟨d, hd.trans (List.prefix_append _ _), ha⟩
      · refine ⟨done, hs ▸ List.prefix_rfl, fun a => ?_⟩
        rw [hkw, hs, hta, ← hattr]
        exact ⟨f4 a, rfl⟩
    · intro l hl
      rcases hnew l hl with hl | ⟨hs, hkw⟩
      · exact I.quant l hl
      · rw [hs, hkw]
        exact ⟨c0, hp0, ht.1, ht.2⟩
    · rw [e3]
      constructor
      · intro h; cases h
      · intro h
        have := h k (by simp)
        rcases hw with hw | hw
        · rw [this.1] at hw; cases hw
        · rw [this.2 c0 hp0] at hw; cases hw
    · intro i hi
      rcases List.mem_append.1 hi with hi | hi
      · exact I.all i hi
      · obtain rfl := List.mem_singleton.1 hi
        simp [hp0]

theorem loop_inv_all {s : St V} (h : loop build t p (List.finRange 7) (start p) = .ok s) :
    Inv t p (List.finRange 7) s := by
  have := loop_inv (Inv t p) (fun done k s s' hk I hp => inv_pass done k s s' hk I hp)
    (List.finRange 7) [] (start p) s (by simpa using List.nodup_finRange 7) inv_start h
  simpa using this

theorem script_ok {o : Script V} (h : script build t p = .ok o) :
    ∃ s, loop build t p (List.finRange 7) (start p) = .ok s ∧ s.cur ≠ none ∧
      o.lines = s.lines ∧ o.final = if p.group then some (s.lines.map (·.job)) else none := by
  unfold script at h
  cases hl : loop build t p (List.finRange 7) (start p) with
  | error e => rw [hl] at h; cases h
  | ok s =>
    rw [hl] at h; dsimp only at h
    cases hc : s.cur with
    | none => rw [hc] at h; cases h
    | some c => rw [hc] at h; cases h; exact ⟨s, rfl, by rw [hc]; simp, rfl, rfl⟩

/-- The steps before a step. -/
def before (k : Step) : List Step := (List.finRange 7).filter fun i => i < k

/-- **The script contains exactly the jobs it should**, in the order of the steps: each requested step,
waiting for the requested step before it; the plots and the checks that are asked for,
waiting for the last requested step up to their own; and the clean-up jobs, waiting for
their job. -/
theorem C105_jobs {o : Script V} (h : script build t p = .ok o) :
    o.lines.map (fun l => (l.job, l.dep)) =
      (List.finRange 7).flatMap fun k => block t p (before k) k := by
  obtain ⟨s, hl, -, ho, -⟩ := script_ok h
  rw [ho, (loop_inv_all hl).lines]
  show blocks t p [] [0, 1, 2, 3, 4, 5, 6] =
    ([0, 1, 2, 3, 4, 5, 6] : List Step).flatMap fun k => block t p (before k) k
  have h0 : before 0 = [] := by decide
  have h1 : before 1 = [0] := by decide
  have h2 : before 2 = [0, 1] := by decide
  have h3 : before 3 = [0, 1, 2] := by decide
  have h4 : before 4 = [0, 1, 2, 3] := by decide
  have h5 : before 5 = [0, 1, 2, 3, 4] := by decide
  have h6 : before 6 = [0, 1, 2, 3, 4, 5] := by decide
  simp only [blocks, List.flatMap_cons, List.flatMap_nil, h0, h1, h2, h3, h4, h5, h6,
    List.nil_append, List.cons_append]

theorem mem_block {d : List Step} {k : Step} {x : Job × Option Job} (h : x ∈ block t p d k) :
    stepOf x.1 = k ∧
    ((∃ j, x.1 = .clean j ∧ x.2 = some j) ∨
     (x.1 = .main k ∧ p.want k = true ∧ x.2 = (prior p d).map .main) ∨
     (x.1 = .plots k ∧ (asked t p k).1 = true ∧ x.2 = (prior p (d ++ [k])).map .main) ∨
     (x.1 = .checks k ∧ (asked t p k).2 = true ∧ x.2 = (prior p (d ++ [k])).map .main)) := by
  have aux : ∀ (b : Bool) (j : Job) (e : Option Job),
      x ∈ (if b then ((j, e) :: (if cleans j then [(Job.clean j, some j)] else [])) else []) →
      b = true ∧ (x = (j, e) ∨ x = (Job.clean j, some j)) := by
    intro b j e hx
    cases b with
    | false => simp at hx
    | true =>
      rw [if_pos rfl] at hx
      refine ⟨rfl, ?_⟩
      rcases List.mem_cons.1 hx with hx | hx
      · exact Or.inl hx
      · split_ifs at hx
        · exact Or.inr (List.mem_singleton.1 hx)
        · cases hx
  simp only [block, List.mem_append] at h
  rcases h with (h | h) | h
  · obtain ⟨hb, rfl | rfl⟩ := aux _ _ _ h
    · exact ⟨rfl, Or.inr (Or.inl ⟨rfl, hb, rfl⟩)⟩
    · exact ⟨rfl, Or.inl ⟨_, rfl, rfl⟩⟩
  · obtain ⟨hb, rfl | rfl⟩ := aux _ _ _ h
    · exact ⟨rfl, Or.inr (Or.inr (Or.inl ⟨rfl, hb, rfl⟩))⟩
    · exact ⟨rfl, Or.inl ⟨_, rfl, rfl⟩⟩
  · obtain ⟨hb, rfl | rfl⟩ := aux _ _ _ h
    · exact ⟨rfl, Or.inr (Or.inr (Or.inr ⟨rfl, hb, rfl⟩))⟩
    · exact ⟨rfl, Or.inl ⟨_, rfl, rfl⟩⟩

/-- **A step is submitted exactly when it is requested**, and waits for the last requested step before it. -/
theorem C105_requested {o : Script V} (h : script build t p = .ok o) (k : Step) :
    ((∃ l ∈ o.lines, l.job = .main k) ↔ p.want k = true) ∧
    ∀ l ∈ o.lines, l.job = .main k → l.dep = (prior p (before k)).map .main := by
  have hj := C105_jobs h
  have hmem : ∀ l ∈ o.lines, (l.job, l.dep) ∈
      (List.finRange 7).flatMap fun k => block t p (before k) k := by
    intro l hl
    rw [← hj]
    exact List.mem_map_of_mem (f := fun l : Line V => (l.job, l.dep)) hl
  have hx : ∀ l ∈ o.lines, l.job = .main k →
      p.want k = true ∧ l.dep = (prior p (before k)).map .main := by
    intro l hl he
    obtain ⟨i, _, hi⟩ := List.mem_flatMap.1 (hmem l hl)
    obtain ⟨hs, hc⟩ := mem_block hi
    dsimp only at hs hc
    rw [he] at hs hc
    cases hs
    rcases hc with ⟨j, hc, _⟩ | ⟨_, hw, hd⟩ | ⟨hc, _⟩ | ⟨hc, _⟩
    · cases hc
    · exact ⟨hw, hd⟩
    · cases hc
    · cases hc
  refine ⟨⟨fun ⟨l, hl, he⟩ => (hx l hl he).1, fun hw => ?_⟩, fun l hl he => (hx l hl he).2⟩
  have : (Job.main k, (prior p (before k)).map Job.main) ∈
      (List.finRange 7).flatMap fun k => block t p (before k) k := by
    refine List.mem_flatMap.2 ⟨k, List.mem_finRange k, ?_⟩
    simp only [block, List.mem_append]
    left; left
    rw [if_pos hw]
    exact List.mem_cons_self
  rw [← hj] at this
  obtain ⟨l, hl, he⟩ := List.mem_map.1 this
  exact ⟨l, hl, (Prod.mk.inj he).1⟩

/-- **No job is submitted twice.** -/
theorem C105_once {o : Script V} (h : script build t p = .ok o) :
    (o.lines.map (·.job)).Nodup := by
  have hj := C105_jobs h
  have : o.lines.map (·.job) =
      ((List.finRange 7).flatMap fun k => block t p (before k) k).map (·.1) := by
    rw [← hj, List.map_map]; rfl
  rw [this, List.map_flatMap, List.nodup_flatMap]
  constructor
  · intro k _
    unfold block
    dsimp only
    cases p.want k <;> cases (asked t p k).1 <;> cases (asked t p k).2 <;>
      by_cases hc : cleans (.main k) = true <;>
      simp [hc, show cleans (.plots k) = true from rfl, show cleans (.checks k) = true from rfl]
  · apply List.Nodup.pairwise_of_forall_ne (List.nodup_finRange 7)
    intro a _ b _ hab
    show List.Disjoint _ _
    intro j h1 h2
    obtain ⟨x, hx, rfl⟩ := List.mem_map.1 h1
    obtain ⟨y, hy, he⟩ := List.mem_map.1 h2
    apply hab
    rw [← (mem_block hx).1, ← (mem_block hy).1, he]

/-- **Every dependency is on a job submitted earlier** in the script, so that its id is known
when it is used. -/
theorem C105_order {o : Script V} (h : script build t p = .ok o) (i : ℕ) (l : Line V) (d : Job)
    (hi : o.lines[i]? = some l) (hd : l.dep = some d) :
    ∃ i' l', i' < i ∧ o.lines[i']? = some l' ∧ l'.job = d := by
  obtain ⟨s, hl, -, ho, -⟩ := script_ok h
  let G (ls : List (Line V)) : Prop := ∀ (i : ℕ) (l : Line V) (d : Job), ls[i]? = some l →
    l.dep = some d → ∃ i' l', i' < i ∧ ls[i']? = some l' ∧ l'.job = d
  have hG1 : ∀ (ls : List (Line V)) (x : Line V), G ls →
      (∀ d, x.dep = some d → ∃ y ∈ ls, y.job = d) → G (ls ++ [x]) := by
    intro ls x hg hx i l d hi hd
    by_cases hlt : i < ls.length
    · rw [List.getElem?_append_left hlt] at hi
      obtain ⟨i', l', h1, h2, h3⟩ := hg i l d hi hd
      exact ⟨i', l', h1, by rw [List.getElem?_append_left (by omega)]; exact h2, h3⟩
    · rw [List.getElem?_append_right (by omega)] at hi
      obtain ⟨hlt2, hx'⟩ := List.getElem?_eq_some_iff.1 hi
      have h0 : i - ls.length = 0 := by
        simp only [List.length_singleton] at hlt2; omega
      simp only [h0, List.getElem_cons_zero] at hx'
      subst hx'
      obtain ⟨y, hy, hyj⟩ := hx d hd
      obtain ⟨n, hn, hny⟩ := List.getElem_of_mem hy
      exact ⟨n, y, by omega, by
        rw [List.getElem?_append_left hn, List.getElem?_eq_some_iff]; exact ⟨hn, hny⟩, hyj⟩
  have hG2 : ∀ (ls : List (Line V)) (j : Job) (dep : Option Job) (c : Sect V) (kn out : List File),
      G ls → (∀ d, dep = some d → ∃ y ∈ ls, y.job = d) → G (ls ++ emit j dep c kn out) := by
    intro ls j dep c kn out hg hd
    have h1 := hG1 ls ⟨j, dep, c, kn, out⟩ hg hd
    unfold emit
    by_cases hc : cleans j = true
    · rw [if_pos hc]
      have h2 := hG1 _ ⟨.clean j, some j, c, kn, []⟩ h1 (by
        intro d hd
        cases hd
        exact ⟨⟨j, dep, c, kn, out⟩, by simp, rfl⟩)
      simpa using h2
    · rw [if_neg hc]; exact h1
  have hI := loop_inv (fun done s => Inv t p done s ∧ G s.lines ∧
      ∀ d, s.last = some d → ∃ y ∈ s.lines, y.job = .main d)
    (by
      intro done k s s' hk ⟨I, g, hla⟩ hp
      refine ⟨inv_pass done k s s' hk I hp, ?_⟩
      have hlast : ∀ d, s.last = some d → d ≠ k := by
        intro d hd he
        rw [I.last] at hd
        have := List.mem_of_getLast? hd
        rw [List.mem_filter] at this
        exact hk (he ▸ this.1)
      obtain ⟨c0, hc0, -⟩ := enter_ok (pass_ok hp).choose_spec.choose_spec.choose_spec.1
      rcases pass_lines hp hc0 hlast with ⟨_, _, rfl⟩ |
        ⟨_, c', hf, fm, fp, fc, e1, e2, e3, -, -, e5⟩
      · exact ⟨g, hla⟩
      · rw [e5]
        have hdep : ∀ (la : Option Step) (ls : List (Line V)),
            (∀ d, la = some d → ∃ y ∈ ls, y.job = .main d) →
            ∀ d, la.map Job.main = some d → ∃ y ∈ ls, y.job = d := by
          intro la ls hh d hd
          cases la with
          | none => cases hd
          | some m =>
            have : Job.main m = d := Option.some.inj hd
            obtain ⟨y, hy, he⟩ := hh m rfl
            exact ⟨y, hy, by rw [he, this]⟩
        -- after the step itself
        have hA : G (s.lines ++ (if p.want k then
              emit (.main k) (s.last.map .main) (tidy t p c') s.made fm else [])) ∧
            ∀ d, s'.last = some d → ∃ y ∈ (s.lines ++ (if p.want k then
              emit (.main k) (s.last.map .main) (tidy t p c') s.made fm else [])),
              y.job = .main d := by
          by_cases hw : p.want k = true
          · rw [if_pos hw]
            refine ⟨hG2 _ _ _ _ _ _ g (hdep _ _ hla), fun d hd => ?_⟩
            rw [e2, if_pos hw] at hd
            cases hd
            exact ⟨⟨.main k, s.last.map .main, tidy t p c', s.made, fm⟩, by simp [emit], rfl⟩
          · rw [if_neg hw, List.append_nil]
            refine ⟨g, fun d hd => ?_⟩
            rw [e2, if_neg hw] at hd
            exact hla d hd
        generalize s.lines ++ (if p.want k then
              emit (.main k) (s.last.map .main) (tidy t p c') s.made fm else []) = A at hA
        have step : ∀ (A : List (Line V)) (b : Bool) (j : Job) (out : List File),
            (G A ∧ ∀ d, s'.last = some d → ∃ y ∈ A, y.job = .main d) →
            (G (A ++ (if b then emit j (s'.last.map .main) (tidy t p c') s'.made out else [])) ∧
             ∀ d, s'.last = some d → ∃ y ∈ (A ++ (if b then
              emit j (s'.last.map .main) (tidy t p c') s'.made out else [])),
              y.job = .main d) := by
          intro A b j out ⟨hg, hl⟩
          cases b with
          | false => rw [if_neg (by simp), List.append_nil]; exact ⟨hg, hl⟩
          | true =>
            rw [if_pos rfl]
            refine ⟨hG2 _ _ _ _ _ _ hg (hdep _ _ hl), fun d hd => ?_⟩
            obtain ⟨y, hy, he⟩ := hl d hd
            exact ⟨y, List.mem_append_left _ hy, he⟩
        exact step _ _ _ _ (step _ _ _ _ hA))
    (List.finRange 7) [] (start p) s (by simpa using List.nodup_finRange 7)
    ⟨inv_start, (by intro i l d hi; simp [start] at hi), (by intro d hd; cases hd)⟩ hl
  rw [ho] at hi ⊢
  exact hI.2.1 i l d hi hd

/-- **A job only counts on files that it waits for**: each file that it takes for created is announced by a
step that the job waits for, directly or through other steps. -/
theorem C105_files {o : Script V} (h : script build t p = .ok o) (l : Line V) (hlo : l ∈ o.lines)
    (f : File) (hf : f ∈ l.known) :
    ∃ m ∈ o.lines, f ∈ m.out ∧ Relation.TransGen (Waits o.lines) l.job m.job := by
  obtain ⟨s, hl, -, ho, -⟩ := script_ok h
  have mono : ∀ (A B : List (Line V)) (a b : Job), Waits A a b → Waits (A ++ B) a b :=
    fun A B a b ⟨l, hl, h⟩ => ⟨l, List.mem_append_left _ hl, h⟩
  -- what is known at some point
  let K (ls : List (Line V)) (la : Option Step) (fs : List File) : Prop :=
    ∀ f ∈ fs, ∃ L, la = some L ∧ ∃ m ∈ ls, f ∈ m.out ∧
      Relation.ReflTransGen (Waits ls) (.main L) m.job
  let Q (ls : List (Line V)) : Prop := ∀ l ∈ ls, ∀ f ∈ l.known, ∃ m ∈ ls, f ∈ m.out ∧
      Relation.TransGen (Waits ls) l.job m.job
  have hK : ∀ A B la fs, K A la fs → K (A ++ B) la fs := by
    intro A B la fs hk f hf
    obtain ⟨L, h1, m, hm, h2, h3⟩ := hk f hf
    exact ⟨L, h1, m, List.mem_append_left _ hm, h2,
      Relation.ReflTransGen.mono (fun a b => mono A B a b) _ _ h3⟩
  have hQ : ∀ A (j : Job) (la : Option Step) (c : Sect V) (kn out : List File), Q A → K A la kn →
      Q (A ++ emit j (la.map .main) c kn out) := by
    intro A j la c kn out hq hk x hx f hf
    have hjl : (⟨j, la.map .main, c, kn, out⟩ : Line V) ∈ A ++ emit j (la.map .main) c kn out := by
      simp [emit]
    rcases List.mem_append.1 hx with hx | hx
    · obtain ⟨m, hm, h2, h3⟩ := hq x hx f hf
      exact ⟨m, List.mem_append_left _ hm, h2,
        Relation.TransGen.mono (fun a b => mono A _ a b) _ _ h3⟩
    · obtain ⟨_, hkn, hcase⟩ := mem_emit hx
      rw [hkn] at hf
      obtain ⟨L, rfl, m, hm, h2, h3⟩ := hk f hf
      have h3' : Relation.ReflTransGen (Waits (A ++ emit j ((some L).map .main) c kn out))
          (.main L) m.job := Relation.ReflTransGen.mono (fun a b => mono A _ a b) _ _ h3
      have hjw : Waits (A ++ emit j ((some L).map .main) c kn out) j (.main L) :=
        ⟨_, hjl, rfl, rfl⟩
      refine ⟨m, List.mem_append_left _ hm, h2, ?_⟩
      rcases hcase with ⟨hj, _, _⟩ | ⟨hj, hd, _⟩
      · rw [hj]
        exact Relation.TransGen.head' hjw h3'
      · rw [hj]
        refine Relation.TransGen.head (b := j) ⟨x, hx |> List.mem_append_right _, hj, hd⟩ ?_
        exact Relation.TransGen.head' hjw h3'
  have hI := loop_inv (fun done s => Inv t p done s ∧ Q s.lines ∧ K s.lines s.last s.made)
    (by
      intro done k s s' hk ⟨I, hq, hkn⟩ hp
      refine ⟨inv_pass done k s s' hk I hp, ?_⟩
      have hlast : ∀ d, s.last = some d → d ≠ k := by
        intro d hd he
        rw [I.last] at hd
        have := List.mem_of_getLast? hd
        rw [List.mem_filter] at this
        exact hk (he ▸ this.1)
      obtain ⟨c0, hc0, -⟩ := enter_ok (pass_ok hp).choose_spec.choose_spec.choose_spec.1
      rcases pass_lines hp hc0 hlast with ⟨_, _, rfl⟩ |
        ⟨_, c', hf, fm, fp, fc, e1, e2, e3, -, e4, e5⟩
      · exact ⟨hq, hkn⟩
      · rw [e5]
        have hA : Q (s.lines ++ (if p.want k then
              emit (.main k) (s.last.map .main) (tidy t p c') s.made fm else [])) ∧
            K (s.lines ++ (if p.want k then
              emit (.main k) (s.last.map .main) (tidy t p c') s.made fm else []))
              s'.last s'.made := by
          by_cases hw : p.want k = true
          · rw [if_pos hw]
            refine ⟨hQ _ _ _ _ _ _ hq hkn, ?_⟩
            rw [e2, if_pos hw, e4, if_pos hw]
            have hjl : (⟨.main k, s.last.map .main, tidy t p c', s.made, fm⟩ : Line V) ∈
              s.lines ++ emit (.main k) (s.last.map .main) (tidy t p c') s.made fm := by
              simp [emit]
            intro f hf
            refine ⟨k, rfl, ?_⟩
            rcases List.mem_append.1 hf with hf | hf
            · obtain ⟨L, hL, m, hm, h2, h3⟩ := hkn f hf
              refine ⟨m, List.mem_append_left _ hm, h2, ?_⟩
              refine Relation.ReflTransGen.head (b := .main L) ⟨_, hjl, rfl, by
                show s.last.map Job.main = _; rw [hL]; rfl⟩ ?_
              exact Relation.ReflTransGen.mono (fun a b => mono _ _ a b) _ _ h3
            · exact ⟨_, hjl, hf, Relation.ReflTransGen.refl⟩
          · rw [if_neg hw, List.append_nil, e2, if_neg hw, e4, if_neg hw, List.append_nil]
            exact ⟨hq, hkn⟩
        generalize s.lines ++ (if p.want k then
              emit (.main k) (s.last.map .main) (tidy t p c') s.made fm else []) = A at hA
        have step : ∀ (A : List (Line V)) (b : Bool) (j : Job) (out : List File),
            (Q A ∧ K A s'.last s'.made) →
            (Q (A ++ (if b then emit j (s'.last.map .main) (tidy t p c') s'.made out else [])) ∧
             K (A ++ (if b then emit j (s'.last.map .main) (tidy t p c') s'.made out else []))
              s'.last s'.made) := by
          intro A b j out ⟨hq, hk⟩
          cases b with
          | false => rw [if_neg (by simp), List.append_nil]; exact ⟨hq, hk⟩
          | true =>
            rw [if_pos rfl]
            exact ⟨hQ _ _ _ _ _ _ hq hk, hK _ _ _ _ hk⟩
        exact step _ _ _ _ (step _ _ _ _ hA))
    (List.finRange 7) [] (start p) s (by simpa using List.nodup_finRange 7)
    ⟨inv_start, (by intro l hl; cases hl), (by intro d hd; cases hd)⟩ hl
  rw [ho] at hlo ⊢
  exact hI.2.1 l hlo f hf

theorem prefix_before (k : Step) (d : List Step) (h : d ++ [k] <+: List.finRange 7) :
    d = before k := by
  have key : ∀ (k : Fin 7) (n : Fin 7), (List.finRange 7)[n.val]? = some k →
      (List.finRange 7).take n.val = before k := by decide
  have hlen : d.length < 7 := by
    have := h.length_le
    simp at this
    omega
  have h1 : d = (List.finRange 7).take d.length :=
    List.prefix_iff_eq_take.1 ((List.prefix_append _ _).trans h)
  have h2 : (List.finRange 7)[d.length]? = some k := by
    obtain ⟨r, hr⟩ := h
    rw [← hr]
    simp
  rw [h1]
  exact key k ⟨d.length, hlen⟩ h2

/-- **Settings are inherited along the requested steps.**  Each job is made with, for each of the four
attributes, the value given for its step or, if there is none, the value of the closest requested
step before that gives one; there always is one. -/
theorem C105_attributes {o : Script V} (h : script build t p = .ok o) (l : Line V)
    (hl : l ∈ o.lines) (a : Fin 4) :
    (l.kw.attr a).isSome ∧ l.kw.attr a = meant p (before (stepOf l.job)) (stepOf l.job) a := by
  obtain ⟨s, hs, -, ho, -⟩ := script_ok h
  rw [ho] at hl
  obtain ⟨d, hd, ha⟩ := (loop_inv_all hs).kw l hl
  rw [← prefix_before _ d hd]
  exact ha a

/-- Each job is made with the plots and checks of its section, sets resolved. -/
theorem C105_quantities {o : Script V} (h : script build t p = .ok o) (l : Line V)
    (hl : l ∈ o.lines) : ∃ c, p.sec (stepOf l.job) = some c ∧
      l.kw.plots = (tidy t p c).plots ∧ l.kw.checks = (tidy t p c).checks := by
  obtain ⟨s, hs, -, ho, -⟩ := script_ok h
  rw [ho] at hl
  exact (loop_inv_all hs).quant l hl

/-- **The final clean-up waits for all jobs**, and exists exactly when a group is given. -/
theorem C105_final {o : Script V} (h : script build t p = .ok o) :
    (p.group = true → o.final = some (o.lines.map (·.job))) ∧
    (p.group = false → o.final = none) := by
  obtain ⟨s, _, -, h1, h2⟩ := script_ok h
  rw [h1, h2]
  exact ⟨fun h => by rw [if_pos h], fun h => by rw [if_neg (by simp [h])]⟩

/-- **The section of a step is demanded even when nothing is asked for in it**: without the section `[rerun]`,
say, no script is written although no rerun is requested. -/
theorem C105_section_violated (k : Step) (hk : p.sec k = none) :
    ∃ e, script build t p = .error e := by
  cases h : script build t p with
  | error e => exact ⟨e, rfl⟩
  | ok o =>
    obtain ⟨s, hs, -⟩ := script_ok h
    have := (loop_inv_all hs).all k (List.mem_finRange k)
    rw [hk] at this
    cases this

/-- **Asking for nothing fails** with `UnboundLocalError` instead of writing an empty script. -/
theorem C105_nothing_violated (hs : ∀ k, ∃ c, p.sec k = some c ∧ hasSub c = false)
    (hw : ∀ k, p.want k = false) : script build t p = .error .unbound := by
  have hpass : ∀ k (s : St V), s.sec = p.sec → pass build t p k s = .ok s := by
    intro k s he
    obtain ⟨c, hc, hsub⟩ := hs k
    have hsub' := hsub
    simp only [hasSub, Bool.or_eq_false_iff] at hsub'
    have h1 : enter t p k s = .ok s := by
      unfold enter
      rw [he, hc]
      dsimp only
      rw [if_neg (by simp [hw k, hsub])]
    have h2 : doMain build p k s = .ok s := by
      unfold doMain
      rw [if_neg (by simp [hw k])]
    have h3 : ∀ j b, b = false → doSub build j b s = .ok s := by
      intro j b hb
      subst hb
      rfl
    unfold pass
    rw [h1]; dsimp only
    rw [h2]; dsimp only
    rw [he, hc, h3 _ _ (show hasOne ((some c).bind (·.plots)) = false from hsub'.1)]; dsimp only
    rw [he, hc, h3 _ _ (show hasOne ((some c).bind (·.checks)) = false from hsub'.2)]
  have hloop : ∀ ks (s : St V), s.sec = p.sec → loop build t p ks s = .ok s := by
    intro ks
    induction ks with
    | nil => intro s _; rfl
    | cons k ks ih =>
      intro s he
      unfold loop
      rw [hpass k s he]
      exact ih s he
  unfold script
  rw [hloop _ (start p) rfl]
  rfl

/-! ### Log directories -/

/-- The steps and the sub-steps of requested steps have a directory for their output; so do
the clean-up jobs. -/
theorem C105_logs_partial {o : Script V} (h : script build t p = .ok o) (l : Line V)
    (hl : l ∈ o.lines)
    (hw : p.want (stepOf l.job) = true ∨ ∃ j, l.job = .clean j) : logOf l.job ∈ logDirs p := by
  unfold logDirs
  rw [List.mem_append]
  cases hj : l.job with
  | clean j => right; simp [logOf]
  | main k =>
    left
    have : p.want k = true := (((C105_requested h) k).1).1 ⟨l, hl, hj⟩
    exact List.mem_map.2 ⟨k, List.mem_filter.2 ⟨List.mem_finRange k, this⟩, rfl⟩
  | plots k =>
    left
    rw [hj] at hw
    rcases hw with hw | ⟨j, hw⟩
    · exact List.mem_map.2 ⟨k, List.mem_filter.2 ⟨List.mem_finRange k, hw⟩, rfl⟩
    · cases hw
  | checks k =>
    left
    rw [hj] at hw
    rcases hw with hw | ⟨j, hw⟩
    · exact List.mem_map.2 ⟨k, List.mem_filter.2 ⟨List.mem_finRange k, hw⟩, rfl⟩
    · cases hw

/-- **Plots and checks of a step that is not requested have no directory for their output.** -/
theorem C105_logs_violated {o : Script V} (h : script build t p = .ok o) (k : Step)
    (hw : p.want k = false) (ha : (asked t p k).1 = true) :
    ∃ l ∈ o.lines, l.job = .plots k ∧ logOf l.job ∉ logDirs p := by
  have : (Job.plots k, (prior p (before k ++ [k])).map Job.main) ∈
      (List.finRange 7).flatMap fun k => block t p (before k) k := by
    refine List.mem_flatMap.2 ⟨k, List.mem_finRange k, ?_⟩
    simp only [block, List.mem_append]
    left; right
    rw [if_pos ha]
    exact List.mem_cons_self
  rw [← C105_jobs h] at this
  obtain ⟨l, hl, he⟩ := List.mem_map.1 this
  refine ⟨l, hl, (Prod.mk.inj he).1, ?_⟩
  rw [(Prod.mk.inj he).1]
  unfold logDirs
  simp [logOf, hw]

/-! ### A concrete pipeline -/

namespace Demo

def given : Fin 4 → Option ℕ := fun a => some a.val
def empty : Sect ℕ := ⟨fun _ => none, none, none⟩

/-- Grid slices are created and combined; after combining there are plots and checks; for
step 3 only checks are asked for.  The attributes are given for step 1 only. -/
def ini : Ini ℕ where
  sec := fun k => some
    (if k = 0 then ⟨given, none, none⟩
     else if k = 1 then ⟨fun _ => none, some [(chars! "PLOT_AFTER_COMBINE"), (chars! "age")],
      some [(chars! "CHECK_AFTER_COMBINE")]⟩
     else if k = 2 then ⟨fun _ => none, none, some [(chars! "CO_type")]⟩
     else empty)
  want := fun k => k = 0 ∨ k = 1
  makePlots := true
  makeChecks := true
  group := true

def sets : Sets := ⟨plottingSets [], checkingSets⟩

/-- Each step announces one file. -/
def make : Job → Sect ℕ → List File → Except Err (List File)
  | .main k, _, _ => .ok [[[Char.ofNat (48 + k.val)]]]
  | _, _, _ => .ok []

/-- The lines, as far as they can be compared. -/
def lines : Except Err (Script ℕ) → List (Job × Option Job × List File)
  | .ok o => o.lines.map (fun l => (l.job, l.dep, l.known))
  | .error _ => []

def final : Except Err (Script ℕ) → Option (List Job)
  | .ok o => o.final
  | .error _ => none

def raised : Except Err (Script ℕ) → Option Err
  | .ok _ => none
  | .error e => some e

example : lines (script make sets ini) =
      [(.main 0, none, []), (.main 1, some (.main 0), [[['0']]]),
        (.clean (.main 1), some (.main 1), [[['0']]]),
        (.plots 1, some (.main 1), [[['0']], [['1']]]),
        (.clean (.plots 1), some (.plots 1), [[['0']], [['1']]]),
        (.checks 1, some (.main 1), [[['0']], [['1']]]),
        (.clean (.checks 1), some (.checks 1), [[['0']], [['1']]]),
        (.checks 2, some (.main 1), [[['0']], [['1']]]),
        (.clean (.checks 2), some (.checks 2), [[['0']], [['1']]])] := by decide +kernel

example : final (script make sets ini) =
    some [.main 0, .main 1, .clean (.main 1), .plots 1, .clean (.plots 1), .checks 1,
          .clean (.checks 1), .checks 2, .clean (.checks 2)] := by decide +kernel

/-- The same request without the section of the rerun. -/
def noRerun : Ini ℕ := { ini with sec := fun k => if k = 6 then none else ini.sec k }

example : raised (script make sets ini) = none ∧ raised (script make sets noRerun) = some .key := by
  decide +kernel

end Demo

/-- The jobs with a clean-up are those of the steps that combine, export and rerun grids, and all plots and checks; the clean-up waits
for its job. -/
theorem C105_cleaned {V : Type} (j : Job) (dep : Option Job) (c : Sect V) (known out : List File) :
    (∃ x ∈ emit j dep c known out, x.job = .clean j) ↔
      j = .main 1 ∨ j = .main 5 ∨ j = .main 6 ∨ (∃ k, j = .plots k) ∨ ∃ k, j = .checks k := by
  cases j with
  | main k =>
    have h : ∀ k : Step, cleans (.main k) = true ↔ k = 1 ∨ k = 5 ∨ k = 6 := by decide
    by_cases hk : cleans (.main k) = true
    · have := (h k).1 hk
      simp [emit, hk, this]
    · have h1 := mt (h k).2 hk
      rw [not_or, not_or] at h1
      simp [emit, hk, h1.1, h1.2.1, h1.2.2]
  | plots k => simp [emit, cleans]
  | checks k => simp [emit, cleans]
  | clean k =>
    simp only [emit, cleans, Bool.false_eq_true, if_false, List.mem_singleton, exists_eq_left, reduceCtorEq, exists_false, or_self, iff_false]
    intro e
    have := congrArg sizeOf e
    simp at this

end Verif.Pipeline
