import Verif.Chars
import Verif.FrameProps
/-!
C82, continued: the table of one line, and the data types of its columns.
-/
namespace Verif.Frame

/-- Properties of stars whose names contain `_i`. -/
def cut : List Name := [(chars! "avg_c_in_c_core"), (chars! "total_moment_of_inertia")]

/-- The argument made of the initial value of a property of a star. -/
def starKey (k : Name) : Name :=
  if k = (chars! "avg_c_in_c_core") then (chars! "avg_c") else if k = (chars! "total_moment_of_inertia") then (chars! "total_moment_of")
  else k ++ (chars! "_history")

/-- The argument made of the initial value of a column of the binary. -/
def ownKey (k : Name) : Name := if k ∈ binaryProps then k ++ (chars! "_history") else k

theorem line_own : ∀ k ∈ ownNames, parseLine (k ++ (chars! "_i")) = some (.b, ownKey k) ∧ parseLine (k ++ (chars! "_f")) = Option.none := by
  decide +kernel

theorem line_s1 : ∀ k ∈ starProps, parseLine ((chars! "S1_") ++ k ++ (chars! "_i")) = some (.s1, starKey k) ∧
    parseLine ((chars! "S1_") ++ k ++ (chars! "_f")) = Option.none := by decide +kernel

theorem line_s2 : ∀ k ∈ starProps, parseLine ((chars! "S2_") ++ k ++ (chars! "_i")) = some (.s2, starKey k) ∧
    parseLine ((chars! "S2_") ++ k ++ (chars! "_f")) = Option.none := by decide +kernel

theorem lineParams_append (w : Whose) (a b : List (Name × V)) : lineParams w (a ++ b) = lineParams w a ++ lineParams w b := by
  simp [lineParams, List.filterMap_append]

theorem lineParams_some {α : Type} {w : Whose} {ks : List α} {g e : α → Name} {v : α → V}
    (h : ∀ k ∈ ks, parseLine (g k) = some (w, e k)) :
    lineParams w (ks.map fun k => (g k, v k)) = ks.map fun k => (e k, v k) := by
  induction ks with
  | nil => rfl
  | cons a l ih =>
    have h1 := h a List.mem_cons_self
    have h2 := ih fun k hk => h k (List.mem_cons_of_mem _ hk)
    unfold lineParams at h2 ⊢
    simp only [List.map_cons, List.filterMap_cons, h1, h2, if_true]

theorem lineParams_none {α : Type} {w : Whose} {ks : List α} {g : α → Name} {v : α → V}
    (h : ∀ k ∈ ks, ∀ e, parseLine (g k) ≠ some (w, e)) : lineParams w (ks.map fun k => (g k, v k)) = [] := by
  unfold lineParams
  rw [List.filterMap_eq_nil_iff]
  intro c hc
  obtain ⟨k, hk, rfl⟩ := List.mem_map.1 hc
  have := h k hk
  dsimp only
  cases hp : parseLine (g k) with
  | none => rfl
  | some q =>
    obtain ⟨w', e⟩ := q
    dsimp only
    rw [if_neg]
    rintro rfl
    exact this e hp

theorem attr_append (a b : List (Name × A)) (p : Name) : attr (a ++ b) p = (attr b p).or (attr a p) := by
  simp only [attr, List.reverse_append, List.find?_append]
  cases List.find? (fun c => c.1 == p) b.reverse <;> simp

theorem attr_none {l : List (Name × A)} {p : Name} (h : ∀ c ∈ l, c.1 ≠ p) : attr l p = Option.none := by
  simp only [attr, Option.map_eq_none_iff, List.find?_eq_none]
  intro c hc
  simpa using h c (List.mem_reverse.1 hc)

theorem attr_map {ks : List Name} {κ : Name → Name} {F : Name → A} {p q : Name} (hq : q ∈ ks) (hk : κ q = p)
    (hu : ∀ k ∈ ks, κ k = p → k = q) : attr (ks.map fun k => (κ k, F k)) p = some (F q) := by
  have hsome : (List.find? (fun c : Name × A => c.1 == p) (ks.map fun k => (κ k, F k)).reverse).isSome := by
    rw [List.find?_isSome]
    exact ⟨(κ q, F q), List.mem_reverse.2 (List.mem_map.2 ⟨q, hq, rfl⟩), by simpa using hk⟩
  obtain ⟨c, hc⟩ := Option.isSome_iff_exists.1 hsome
  have h1 := List.mem_reverse.1 (List.mem_of_find?_eq_some hc)
  have h2 := List.find?_some hc
  obtain ⟨k, hk', rfl⟩ := List.mem_map.1 h1
  simp only [beq_iff_eq] at h2
  have := hu k hk' h2
  subst this
  simp [attr, hc]

/-- The name left of `_history` of the argument for a star. -/
theorem star_base : ∀ k ∈ starProps, before (chars! "_history") (starKey k) = if k = (chars! "avg_c_in_c_core") then (chars! "avg_c") else
    if k = (chars! "total_moment_of_inertia") then (chars! "total_moment_of") else k := by decide +kernel

theorem own_base : ∀ k ∈ ownNames, before (chars! "_history") (ownKey k) = k := by decide +kernel

theorem star_facts : (∀ k ∈ starProps, ¬ (chars! "_history") <:+ k) ∧ (chars! "avg_c") ∉ starProps ∧ (chars! "total_moment_of") ∉ starProps ∧
    ¬ (chars! "_history") <:+ (chars! "avg_c") ∧ ¬ (chars! "_history") <:+ (chars! "total_moment_of") := by decide +kernel

theorem own_facts : ∀ k ∈ ownNames, ¬ (chars! "_history") <:+ k := by decide +kernel

theorem not_cut {p : Name} (h : p ∉ cut) : p ≠ (chars! "avg_c_in_c_core") ∧ p ≠ (chars! "total_moment_of_inertia") := by
  unfold cut at h
  simp only [List.mem_cons, List.not_mem_nil, or_false, not_or] at h
  exact h

theorem base_eq {k p : Name} (hk : k ∈ starProps) (hp : p ∈ starProps) (h : before (chars! "_history") (starKey k) = p) : k = p := by
  rw [star_base k hk] at h
  split at h
  · exact absurd (h ▸ hp) star_facts.2.1
  · split at h
    · exact absurd (h ▸ hp) star_facts.2.2.1
    · exact h

/-- What is assigned to a star from the columns of one line. -/
theorem star_attr {ks : List Name} (hs : ∀ k ∈ ks, k ∈ starProps) (v : Name → V) {p : Name} (hp : p ∈ ks) (hc : p ∉ cut) :
    attr (assigned (ks.map fun k => (starKey k, v k))) p = some (.val (v p)) ∧
    attr (assigned (ks.map fun k => (starKey k, v k))) (p ++ (chars! "_history")) = some (.list [v p]) := by
  obtain ⟨c1, c2⟩ := not_cut hc
  have hps := hs p hp
  have e : assigned (ks.map fun k => (starKey k, v k)) = (ks.map fun k => (starKey k, A.list [v k])) ++
      (ks.map fun k => (before (chars! "_history") (starKey k), A.val (v k))) := by
    simp only [assigned, List.map_append, List.map_map, Function.comp_def]
  rw [e]
  refine ⟨?_, ?_⟩
  · rw [attr_append, attr_map (κ := fun k => before (chars! "_history") (starKey k)) (F := fun k => A.val (v k)) hp
      (by rw [star_base p hps, if_neg c1, if_neg c2]) (fun k hk h => base_eq (hs k hk) hps h)]
    rfl
  · rw [attr_append, attr_none, attr_map (κ := starKey) (F := fun k => A.list [v k]) (q := p) hp]
    · rfl
    · unfold starKey; rw [if_neg c1, if_neg c2]
    · intro k hk h
      unfold starKey at h
      split at h
      · exact absurd (h ▸ List.suffix_append _ _) star_facts.2.2.2.1
      · split at h
        · exact absurd (h ▸ List.suffix_append _ _) star_facts.2.2.2.2
        · exact List.append_cancel_right h
    · intro c hc h
      obtain ⟨k, hk, rfl⟩ := List.mem_map.1 hc
      simp only at h
      rw [star_base k (hs k hk)] at h
      split at h
      · exact absurd (h ▸ List.suffix_append _ _) star_facts.2.2.2.1
      · split at h
        · exact absurd (h ▸ List.suffix_append _ _) star_facts.2.2.2.2
        · exact star_facts.1 k (hs k hk) (h ▸ List.suffix_append _ _)

theorem star_attr_cut {ks : List Name} (hs : ∀ k ∈ ks, k ∈ starProps) (v : Name → V) {p : Name} (hc : p ∈ cut) :
    attr (assigned (ks.map fun k => (starKey k, v k))) p = Option.none := by
  have hcs : ∀ p ∈ cut, p ∈ starProps := by decide +kernel
  have hne : ∀ p ∈ cut, starKey p ≠ p ∧ before (chars! "_history") (starKey p) ≠ p := by decide +kernel
  apply attr_none
  intro c hm h
  have e : assigned (ks.map fun k => (starKey k, v k)) = (ks.map fun k => (starKey k, A.list [v k])) ++
      (ks.map fun k => (before (chars! "_history") (starKey k), A.val (v k))) := by
    simp only [assigned, List.map_append, List.map_map, Function.comp_def]
  rw [e] at hm
  rcases List.mem_append.1 hm with hm | hm
  · obtain ⟨k, hk, rfl⟩ := List.mem_map.1 hm
    simp only at h
    unfold starKey at h
    split at h
    · exact star_facts.2.1 (h ▸ hcs p hc)
    · split at h
      · exact star_facts.2.2.1 (h ▸ hcs p hc)
      · exact star_facts.1 p (hcs p hc) (h ▸ List.suffix_append _ _)
  · obtain ⟨k, hk, rfl⟩ := List.mem_map.1 hm
    simp only at h
    have := base_eq (hs k hk) (hcs p hc) h
    subst this
    exact (hne k hc).2 h

theorem own_attr {ks : List Name} (hs : ∀ k ∈ ks, k ∈ binaryProps) (v : Name → V) {ext : List (Name × V)}
    (hx : ∀ c ∈ ext, c.1 ∈ three (chars! "V_sys") ++ three (chars! "NN_dist")) {p : Name} (hp : p ∈ ks) :
    attr (assigned (ks.map (fun k => (ownKey k, v k)) ++ ext.map fun c => (ownKey c.1, c.2))) p = some (.val (v p)) ∧
    attr (assigned (ks.map (fun k => (ownKey k, v k)) ++ ext.map fun c => (ownKey c.1, c.2))) (p ++ (chars! "_history")) = some (.list [v p]) := by
  have hps := hs p hp
  have hbo : ∀ k ∈ binaryProps, k ∈ ownNames := fun k hk => List.mem_append_left _ hk
  have hxo : ∀ c ∈ ext, c.1 ∈ ownNames := fun c hc => List.mem_append_right _ (hx c hc)
  have e : assigned (ks.map (fun k => (ownKey k, v k)) ++ ext.map fun c => (ownKey c.1, c.2)) =
      ((ks.map fun k => (ownKey k, A.list [v k])) ++ (ext.map fun c => (ownKey c.1, A.list [c.2]))) ++
      ((ks.map fun k => (before (chars! "_history") (ownKey k), A.val (v k))) ++
        ext.map fun c => (before (chars! "_history") (ownKey c.1), A.val c.2)) := by
    simp only [assigned, List.map_append, List.map_map, Function.comp_def]
  rw [e]
  refine ⟨?_, ?_⟩
  · rw [attr_append, attr_append (ks.map _), attr_none (l := ext.map _) (p := p),
      attr_map (κ := fun k => before (chars! "_history") (ownKey k)) (F := fun k => A.val (v k)) hp (own_base p (hbo p hps))]
    · rfl
    · intro k hk h
      rw [own_base k (hbo k (hs k hk))] at h
      exact h
    · intro c hc h
      obtain ⟨d, hd, rfl⟩ := List.mem_map.1 hc
      simp only at h
      rw [own_base _ (hxo d hd)] at h
      exact three_not_prop _ (hx d hd) (h ▸ hps)
  · rw [attr_append, attr_none (l := (ks.map _) ++ ext.map _) (p := p ++ (chars! "_history")), attr_append, attr_none (l := ext.map _),
      attr_map (κ := ownKey) (F := fun k => A.list [v k]) (q := p) hp]
    · rfl
    · unfold ownKey; rw [if_pos hps]
    · intro k hk h
      unfold ownKey at h
      rw [if_pos (hs k hk)] at h
      exact List.append_cancel_right h
    · intro c hc h
      obtain ⟨d, hd, rfl⟩ := List.mem_map.1 hc
      simp only at h
      unfold ownKey at h
      rw [if_neg (three_not_prop _ (hx d hd))] at h
      exact own_facts _ (hxo d hd) (h ▸ List.suffix_append _ _)
    · intro c hc h
      rcases List.mem_append.1 hc with hc | hc
      · obtain ⟨k, hk, rfl⟩ := List.mem_map.1 hc
        simp only at h
        rw [own_base k (hbo k (hs k hk))] at h
        exact own_facts _ (hbo k (hs k hk)) (h ▸ List.suffix_append _ _)
      · obtain ⟨d, hd, rfl⟩ := List.mem_map.1 hc
        simp only at h
        rw [own_base _ (hxo d hd)] at h
        exact own_facts _ (hxo d hd) (h ▸ List.suffix_append _ _)

/-- The line of a binary: first and last values, and the two marks. -/
def line (t : Table) (failed warning : V) : List (Name × V) := toOneline t ++ [((chars! "FAILED"), failed), ((chars! "WARNING"), warning)]

theorem marks : parseLine (chars! "FAILED") = Option.none ∧ parseLine (chars! "WARNING") = Option.none := by decide +kernel

/-- The names that occur in the line of a binary. -/
def lineNames : List Name :=
  (ownNames ++ starProps.map ((chars! "S1_") ++ ·) ++ starProps.map ((chars! "S2_") ++ ·)).flatMap (fun k => [k ++ (chars! "_i"), k ++ (chars! "_f")])
    ++ [(chars! "FAILED"), (chars! "WARNING")]

theorem no_arrays : (lineNames.all fun k => !isIn ((chars! "S1") ++ (chars! "_natal_kick_array")) k && !isIn ((chars! "S2") ++ (chars! "_natal_kick_array")) k
    && (k == (chars! "FAILED") || k != (chars! "FAILED"))) = true := by decide +kernel

theorem not_failed : ∀ k ∈ ownNames ++ starProps.map ((chars! "S1_") ++ ·) ++ starProps.map ((chars! "S2_") ++ ·),
    k ++ (chars! "_i") ≠ (chars! "FAILED") ∧ k ++ (chars! "_f") ≠ (chars! "FAILED") := by decide +kernel

/-- What is read from the line of a complete binary. -/
theorem line_ok {x : Binary} {n : ℕ} {fb f1 f2 : Name → List V} (h : Full x n fb f1 f2) {o o1 o2 : Sel} {pr : Bool}
    (ho : o.Known binaryProps) (hi : o.select = [] → (chars! "binary_index") ∉ o.ignore)
    (h1 : (starSel pr o1).Known starProps) (h2 : (starSel pr o2).Known starProps) (failed warning : V) :
    ∃ t r, ∃ ext : List (Name × V), toDf o o1 o2 pr x = .ok t ∧ fromOneline (some (chars! "binary_index")) (line t failed warning) = .ok r ∧
      (∀ c ∈ ext, c.1 ∈ three (chars! "V_sys") ++ three (chars! "NN_dist")) ∧
      r.b = (fun p => if p = (chars! "event") ∧ failed ≠ .atom 2 then some (.val (.atom 6)) else
        attr (assigned (((keys binaryProps o).filter (· ∉ vectors)).map (fun k => (ownKey k, ((fb k).map nullify).headD .null)) ++
          ext.map fun c => (ownKey c.1, c.2))) p) ∧
      r.s1 = attr (assigned ((keys starProps (starSel pr o1)).map fun k => (starKey k, ((f1 k).map nullify).headD .null))) ∧
      r.s2 = attr (assigned ((keys starProps (starSel pr o2)).map fun k => (starKey k, ((f2 k).map nullify).headD .null))) := by
  obtain ⟨ext, he, hx⟩ := toDf_ok h ho hi h1 h2
  have hs := keys_sub ho.1
  have hs1 := keys_sub h1.1
  have hs2 := keys_sub h2.1
  set own : Cols := ((keys binaryProps o).filter (· ∉ vectors)).map (fun k => (k, (fb k).map nullify)) ++ ext with hown
  set k1 := keys starProps (starSel pr o1) with hk1
  set k2 := keys starProps (starSel pr o2) with hk2
  have hon : ∀ c ∈ own, c.1 ∈ ownNames := by
    intro c hc
    rcases List.mem_append.1 hc with hc | hc
    · obtain ⟨k, hk, rfl⟩ := List.mem_map.1 hc
      exact List.mem_append_left _ (hs k (List.mem_filter.1 hk).1)
    · exact List.mem_append_right _ (hx c hc).1
  set t : Table := ⟨some (chars! "binary_index"), x.idx, own ++ (k1.map fun k => ((chars! "S1_") ++ k, (f1 k).map nullify)) ++
    (k2.map fun k => ((chars! "S2_") ++ k, (f2 k).map nullify))⟩ with ht
  have hline : line t failed warning =
      ((own.map fun c => (c.1 ++ (chars! "_i"), c.2.headD .null)) ++
        (k1.map fun k => ((chars! "S1_") ++ k ++ (chars! "_i"), ((f1 k).map nullify).headD .null)) ++
        (k2.map fun k => ((chars! "S2_") ++ k ++ (chars! "_i"), ((f2 k).map nullify).headD .null))) ++
      ((own.map fun c => (c.1 ++ (chars! "_f"), c.2.getLastD .null)) ++
        (k1.map fun k => ((chars! "S1_") ++ k ++ (chars! "_f"), ((f1 k).map nullify).getLastD .null)) ++
        (k2.map fun k => ((chars! "S2_") ++ k ++ (chars! "_f"), ((f2 k).map nullify).getLastD .null))) ++
      [((chars! "FAILED"), failed), ((chars! "WARNING"), warning)] := by
    simp only [line, toOneline, ht, List.map_append, List.map_map, Function.comp_def]
  have hmarks : ∀ w, lineParams w [((chars! "FAILED"), failed), ((chars! "WARNING"), warning)] = [] := by
    intro w
    unfold lineParams
    simp only [List.filterMap_cons, marks.1, marks.2, List.filterMap_nil]
  have pb : lineParams .b (line t failed warning) = own.map fun c => (ownKey c.1, c.2.headD .null) := by
    rw [hline]
    simp only [lineParams_append, hmarks, List.append_nil]
    rw [lineParams_some (g := fun c : Name × List V => c.1 ++ (chars! "_i")) (e := fun c => ownKey c.1) fun c hc => (line_own _ (hon c hc)).1,
      lineParams_none (g := fun k => (chars! "S1_") ++ k ++ (chars! "_i")) (fun k hk e hh => by rw [(line_s1 k (hs1 k hk)).1] at hh; simp at hh),
      lineParams_none (g := fun k => (chars! "S2_") ++ k ++ (chars! "_i")) (fun k hk e hh => by rw [(line_s2 k (hs2 k hk)).1] at hh; simp at hh),
      lineParams_none (g := fun c : Name × List V => c.1 ++ (chars! "_f")) (fun c hc e hh => by rw [(line_own _ (hon c hc)).2] at hh; simp at hh),
      lineParams_none (g := fun k => (chars! "S1_") ++ k ++ (chars! "_f")) (fun k hk e hh => by rw [(line_s1 k (hs1 k hk)).2] at hh; simp at hh),
      lineParams_none (g := fun k => (chars! "S2_") ++ k ++ (chars! "_f")) (fun k hk e hh => by rw [(line_s2 k (hs2 k hk)).2] at hh; simp at hh)]
    simp
  have p1 : lineParams .s1 (line t failed warning) = k1.map fun k => (starKey k, ((f1 k).map nullify).headD .null) := by
    rw [hline]
    simp only [lineParams_append, hmarks, List.append_nil]
    rw [lineParams_some (g := fun k => (chars! "S1_") ++ k ++ (chars! "_i")) (e := starKey) fun k hk => (line_s1 _ (hs1 k hk)).1,
      lineParams_none (g := fun c : Name × List V => c.1 ++ (chars! "_i")) (fun c hc e hh => by rw [(line_own _ (hon c hc)).1] at hh; simp at hh),
      lineParams_none (g := fun k => (chars! "S2_") ++ k ++ (chars! "_i")) (fun k hk e hh => by rw [(line_s2 k (hs2 k hk)).1] at hh; simp at hh),
      lineParams_none (g := fun c : Name × List V => c.1 ++ (chars! "_f")) (fun c hc e hh => by rw [(line_own _ (hon c hc)).2] at hh; simp at hh),
      lineParams_none (g := fun k => (chars! "S1_") ++ k ++ (chars! "_f")) (fun k hk e hh => by rw [(line_s1 k (hs1 k hk)).2] at hh; simp at hh),
      lineParams_none (g := fun k => (chars! "S2_") ++ k ++ (chars! "_f")) (fun k hk e hh => by rw [(line_s2 k (hs2 k hk)).2] at hh; simp at hh)]
    simp
  have p2 : lineParams .s2 (line t failed warning) = k2.map fun k => (starKey k, ((f2 k).map nullify).headD .null) := by
    rw [hline]
    simp only [lineParams_append, hmarks, List.append_nil]
    rw [lineParams_some (g := fun k => (chars! "S2_") ++ k ++ (chars! "_i")) (e := starKey) fun k hk => (line_s2 _ (hs2 k hk)).1,
      lineParams_none (g := fun c : Name × List V => c.1 ++ (chars! "_i")) (fun c hc e hh => by rw [(line_own _ (hon c hc)).1] at hh; simp at hh),
      lineParams_none (g := fun k => (chars! "S1_") ++ k ++ (chars! "_i")) (fun k hk e hh => by rw [(line_s1 k (hs1 k hk)).1] at hh; simp at hh),
      lineParams_none (g := fun c : Name × List V => c.1 ++ (chars! "_f")) (fun c hc e hh => by rw [(line_own _ (hon c hc)).2] at hh; simp at hh),
      lineParams_none (g := fun k => (chars! "S1_") ++ k ++ (chars! "_f")) (fun k hk e hh => by rw [(line_s1 k (hs1 k hk)).2] at hh; simp at hh),
      lineParams_none (g := fun k => (chars! "S2_") ++ k ++ (chars! "_f")) (fun k hk e hh => by rw [(line_s2 k (hs2 k hk)).2] at hh; simp at hh)]
    simp
  -- names of the columns
  have hcols : ∀ c ∈ t.cols, c.1 ∈ ownNames ++ starProps.map ((chars! "S1_") ++ ·) ++ starProps.map ((chars! "S2_") ++ ·) := by
    intro c hc
    rcases List.mem_append.1 hc with hc | hc
    · rcases List.mem_append.1 hc with hc | hc
      · exact List.mem_append_left _ (List.mem_append_left _ (hon c hc))
      · obtain ⟨k, hk, rfl⟩ := List.mem_map.1 hc
        exact List.mem_append_left _ (List.mem_append_right _ (List.mem_map.2 ⟨k, hs1 k hk, rfl⟩))
    · obtain ⟨k, hk, rfl⟩ := List.mem_map.1 hc
      exact List.mem_append_right _ (List.mem_map.2 ⟨k, hs2 k hk, rfl⟩)
  have hnames : ∀ c ∈ line t failed warning, c.1 ∈ lineNames := by
    intro c hc
    unfold line toOneline at hc
    rcases List.mem_append.1 hc with hc | hc
    · rcases List.mem_append.1 hc with hc | hc
      · obtain ⟨d, hd, rfl⟩ := List.mem_map.1 hc
        exact List.mem_append_left _ (List.mem_flatMap.2 ⟨d.1, hcols d hd, List.mem_cons_self⟩)
      · obtain ⟨d, hd, rfl⟩ := List.mem_map.1 hc
        exact List.mem_append_left _ (List.mem_flatMap.2 ⟨d.1, hcols d hd, List.mem_cons_of_mem _ List.mem_cons_self⟩)
    · simp only [List.mem_cons, List.not_mem_nil, or_false] at hc
      refine List.mem_append_right _ ?_
      rcases hc with rfl | rfl
      · exact List.mem_cons_self
      · exact List.mem_cons_of_mem _ List.mem_cons_self
  have harr : ∀ c ∈ line t failed warning, isIn ((chars! "S1") ++ (chars! "_natal_kick_array")) c.1 = false ∧
      isIn ((chars! "S2") ++ (chars! "_natal_kick_array")) c.1 = false := by
    intro c hc
    have := List.all_eq_true.1 no_arrays c.1 (hnames c hc)
    simp only [Bool.and_eq_true, Bool.not_eq_true'] at this
    exact this.1
  have hold1 : ((line t failed warning).any fun c => isIn ((chars! "S1") ++ (chars! "_natal_kick_array")) c.1) = false := by
    rw [List.any_eq_false]; intro c hc; rw [(harr c hc).1]; simp
  have hold2 : ((line t failed warning).any fun c => isIn ((chars! "S2") ++ (chars! "_natal_kick_array")) c.1) = false := by
    rw [List.any_eq_false]; intro c hc; rw [(harr c hc).2]; simp
  have hall : ((line t failed warning).all fun c => (parseLine c.1).isNone) = false := by
    rw [List.all_eq_false]
    obtain ⟨k, hk⟩ := List.exists_mem_of_ne_nil _ h1.2
    refine ⟨((chars! "S1_") ++ k ++ (chars! "_i"), ((f1 k).map nullify).headD .null), ?_, ?_⟩
    · rw [hline]
      refine List.mem_append_left _ (List.mem_append_left _ (List.mem_append_left _ (List.mem_append_right _ (List.mem_map.2 ⟨k, hk, rfl⟩))))
    · simp only
      rw [(line_s1 k (hs1 k hk)).1]; simp
  have hfind : (line t failed warning).find? (fun c => c.1 == (chars! "FAILED")) = some ((chars! "FAILED"), failed) := by
    unfold line
    rw [List.find?_append]
    have : (toOneline t).find? (fun c => c.1 == (chars! "FAILED")) = Option.none := by
      rw [List.find?_eq_none]
      intro c hc
      unfold toOneline at hc
      rcases List.mem_append.1 hc with hc | hc
      · obtain ⟨d, hd, rfl⟩ := List.mem_map.1 hc
        have := (not_failed d.1 (hcols d hd)).1
        rw [beq_iff_eq]
        exact this
      · obtain ⟨d, hd, rfl⟩ := List.mem_map.1 hc
        have := (not_failed d.1 (hcols d hd)).2
        rw [beq_iff_eq]
        exact this
    rw [this]
    simp
  obtain ⟨r, hr⟩ : ∃ r : ReadLine, r = ⟨fun p => if p = (chars! "event") ∧ failed ≠ .atom 2 then some (.val (.atom 6)) else
      attr (assigned (lineParams .b (line t failed warning))) p, attr (assigned (lineParams .s1 (line t failed warning))),
      attr (assigned (lineParams .s2 (line t failed warning)))⟩ := ⟨_, rfl⟩
  refine ⟨t, r, ext.map fun c => (c.1, c.2.headD .null), he, ?_, ?_, ?_, ?_, ?_⟩
  · unfold fromOneline
    simp only [hall, hold1, hold2, hfind, Bool.false_and, Bool.or_false, Bool.false_eq_true, if_false, hr]
  · intro c hc
    obtain ⟨d, hd, rfl⟩ := List.mem_map.1 hc
    exact (hx d hd).1
  · rw [hr]
    simp only [pb, hown, List.map_append, List.map_map, Function.comp_def]
  · rw [hr]
    simp only [p1]
  · rw [hr]
    simp only [p2]

/-- A binary whose line is read back is the binary at its start: every written property of the binary that is not a vector and
every written property of the stars except two has the first value of its history, as present value and as the only entry of
its history. Missing: vectors, the moment of inertia and the carbon of the core. -/
theorem C82_line_partial {x : Binary} {n : ℕ} {fb f1 f2 : Name → List V} (h : Full x n fb f1 f2) {o o1 o2 : Sel} {pr : Bool}
    (ho : o.Known binaryProps) (hi : o.select = [] → (chars! "binary_index") ∉ o.ignore)
    (h1 : (starSel pr o1).Known starProps) (h2 : (starSel pr o2).Known starProps) (failed warning : V) :
    ∃ t r, toDf o o1 o2 pr x = .ok t ∧ fromOneline (some (chars! "binary_index")) (line t failed warning) = .ok r ∧
      (∀ p ∈ keys binaryProps o, p ∉ vectors → r.b (p ++ (chars! "_history")) = some (.list [((fb p).map nullify).headD .null]) ∧
        (p ≠ (chars! "event") ∨ failed = .atom 2 → r.b p = some (.val (((fb p).map nullify).headD .null)))) ∧
      (∀ p ∈ keys starProps (starSel pr o1), p ∉ cut → r.s1 (p ++ (chars! "_history")) = some (.list [((f1 p).map nullify).headD .null]) ∧
        r.s1 p = some (.val (((f1 p).map nullify).headD .null))) ∧
      (∀ p ∈ keys starProps (starSel pr o2), p ∉ cut → r.s2 (p ++ (chars! "_history")) = some (.list [((f2 p).map nullify).headD .null]) ∧
        r.s2 p = some (.val (((f2 p).map nullify).headD .null))) := by
  obtain ⟨t, r, ext, e1, e2, hx, eb, es1, es2⟩ := line_ok h ho hi h1 h2 failed warning
  have hs := keys_sub ho.1
  have hev : ∀ p ∈ binaryProps, p ++ (chars! "_history") ≠ (chars! "event") := by decide +kernel
  refine ⟨t, r, e1, e2, ?_, ?_, ?_⟩
  · intro p hp hv
    obtain ⟨a, b⟩ := own_attr (ks := (keys binaryProps o).filter (· ∉ vectors)) (fun k hk => hs k (List.mem_filter.1 hk).1)
      (fun k => ((fb k).map nullify).headD .null) hx (p := p) (List.mem_filter.2 ⟨hp, by simpa using hv⟩)
    rw [eb]
    refine ⟨?_, ?_⟩
    · dsimp only
      rw [if_neg (fun hh => hev p (hs p hp) hh.1)]
      exact b
    · intro hh
      dsimp only
      rw [if_neg]
      · exact a
      · rintro ⟨g1, g2⟩
        rcases hh with hh | hh
        · exact hh g1
        · exact g2 hh
  · intro p hp hc
    rw [es1]
    exact (star_attr (keys_sub h1.1) _ hp hc).symm
  · intro p hp hc
    rw [es2]
    exact (star_attr (keys_sub h2.1) _ hp hc).symm

example (failed warning : V) := C82_line_partial sample_full (o := all) (o1 := all) (o2 := all) (pr := false)
  all_known_b (by simp [all]) all_known_s all_known_s failed warning

/-- The moment of inertia and the carbon abundance of the core are written, but nothing is assigned to them when the line is
read: their names contain `_i`. -/
theorem C82_cut_violated {x : Binary} {n : ℕ} {fb f1 f2 : Name → List V} (h : Full x n fb f1 f2) {o o1 o2 : Sel} {pr : Bool}
    (ho : o.Known binaryProps) (hi : o.select = [] → (chars! "binary_index") ∉ o.ignore)
    (h1 : (starSel pr o1).Known starProps) (h2 : (starSel pr o2).Known starProps) (failed warning : V) :
    ∃ t r, toDf o o1 o2 pr x = .ok t ∧ fromOneline (some (chars! "binary_index")) (line t failed warning) = .ok r ∧
      ∀ p ∈ cut, r.s1 p = Option.none ∧ r.s2 p = Option.none := by
  obtain ⟨t, r, ext, e1, e2, hx, eb, es1, es2⟩ := line_ok h ho hi h1 h2 failed warning
  refine ⟨t, r, e1, e2, ?_⟩
  intro p hp
  rw [es1, es2]
  exact ⟨star_attr_cut (keys_sub h1.1) _ hp, star_attr_cut (keys_sub h2.1) _ hp⟩

/-- A binary that failed is read with event FAILED; one that did not has the event it started with. -/
theorem C82_failed {x : Binary} {n : ℕ} {fb f1 f2 : Name → List V} (h : Full x n fb f1 f2) {o o1 o2 : Sel} {pr : Bool}
    (ho : o.Known binaryProps) (hi : o.select = [] → (chars! "binary_index") ∉ o.ignore)
    (h1 : (starSel pr o1).Known starProps) (h2 : (starSel pr o2).Known starProps) (failed warning : V) (hf : failed ≠ .atom 2) :
    ∃ t r, toDf o o1 o2 pr x = .ok t ∧ fromOneline (some (chars! "binary_index")) (line t failed warning) = .ok r ∧
      r.b (chars! "event") = some (.val (.atom 6)) := by
  obtain ⟨t, r, ext, e1, e2, hx, eb, es1, es2⟩ := line_ok h ho hi h1 h2 failed warning
  refine ⟨t, r, e1, e2, ?_⟩
  rw [eb]
  dsimp only
  rw [if_pos ⟨rfl, hf⟩]

/-- Without the mark of failure a line is not read, and a line handed over as a series neither. -/
theorem C82_line_errors (row : List (Name × V)) : (∃ e, fromOneline Option.none row = .error e) ∧
    ((∀ c ∈ row, c.1 ≠ (chars! "FAILED")) → ∀ i, ∃ e, fromOneline i row = .error e) := by
  refine ⟨?_, ?_⟩
  · unfold fromOneline
    dsimp only
    split
    · exact ⟨_, rfl⟩
    · split <;> exact ⟨_, rfl⟩
  · intro hf i
    have : row.find? (fun c => c.1 == (chars! "FAILED")) = Option.none := by
      rw [List.find?_eq_none]
      intro c hc
      rw [beq_iff_eq]
      exact hf c hc
    unfold fromOneline
    dsimp only
    rw [this]
    cases i with
    | none => split <;> [exact ⟨_, rfl⟩; split <;> exact ⟨_, rfl⟩]
    | some nm => split <;> [exact ⟨_, rfl⟩; (split <;> [exact ⟨_, rfl⟩; (dsimp only; split <;> exact ⟨_, rfl⟩)])]

/-- A line with the columns of an old array of natal kicks is never read, although the code provides for it. -/
theorem C82_kick_array_violated (i : Option Name) (row : List (Name × V))
    (h : ∃ c ∈ row, isIn (chars! "S1_natal_kick_array") c.1 = true ∨ isIn (chars! "S2_natal_kick_array") c.1 = true) :
    ∃ e, fromOneline i row = .error e := by
  obtain ⟨c, hc, h⟩ := h
  have e1 : (chars! "S1_natal_kick_array") = (chars! "S1") ++ (chars! "_natal_kick_array") := by decide +kernel
  have e2 : (chars! "S2_natal_kick_array") = (chars! "S2") ++ (chars! "_natal_kick_array") := by decide +kernel
  rw [e1, e2] at h
  have hold : ((row.any fun c => isIn ((chars! "S1") ++ (chars! "_natal_kick_array")) c.1) ||
      (row.any fun c => isIn ((chars! "S2") ++ (chars! "_natal_kick_array")) c.1)) = true := by
    rw [Bool.or_eq_true]
    rcases h with h | h
    · exact Or.inl (List.any_eq_true.2 ⟨c, hc, h⟩)
    · exact Or.inr (List.any_eq_true.2 ⟨c, hc, h⟩)
  unfold fromOneline
  dsimp only
  split
  · exact ⟨_, rfl⟩
  · split
    · exact ⟨_, rfl⟩
    · cases i with
      | none => exact ⟨_, rfl⟩
      | some nm =>
        simp only [hold, if_true]
        exact ⟨_, rfl⟩

example : ∃ e, fromOneline (some (chars! "binary_index")) [((chars! "time_i"), .atom 1), ((chars! "S1_natal_kick_array_0"), .atom 1),
    ((chars! "S1_natal_kick_array_1"), .atom 1), ((chars! "S1_natal_kick_array_2"), .atom 1), ((chars! "S1_natal_kick_array_3"), .atom 1),
    ((chars! "FAILED"), .atom 2)] = .error e :=
  C82_kick_array_violated _ _ ⟨((chars! "S1_natal_kick_array_0"), .atom 1), by simp, by decide +kernel⟩

/-! ### Single values -/

/-- `SCALAR_NAMES_DTYPES`, `/repo/posydon/popsyn/io.py` l.144-165, without the old array. -/
def scalars : List Name := [(chars! "natal_kick_velocity"), (chars! "natal_kick_azimuthal_angle"), (chars! "natal_kick_polar_angle"),
  (chars! "natal_kick_mean_anomaly"), (chars! "SN_type"), (chars! "f_fb"), (chars! "spin_orbit_tilt_first_SN"),
  (chars! "spin_orbit_tilt_second_SN"), (chars! "M4"), (chars! "mu4"), (chars! "avg_c_in_c_core_at_He_depletion"),
  (chars! "co_core_mass_at_He_depletion"), (chars! "h1_mass_ej"), (chars! "he4_mass_ej")]

/-- Every single value of a star except one is an argument of its own name, and assigned under it. -/
theorem C82_scalars_partial : ∀ s ∈ scalars, s ≠ (chars! "avg_c_in_c_core_at_He_depletion") →
    parseLine ((chars! "S1_") ++ s) = some (.s1, s) ∧ parseLine ((chars! "S2_") ++ s) = some (.s2, s) ∧
    ∀ v, attr (assigned [(s, v)]) s = some (.val v) := by
  have key : ∀ s ∈ scalars, s ≠ (chars! "avg_c_in_c_core_at_He_depletion") →
    parseLine ((chars! "S1_") ++ s) = some (.s1, s) ∧ parseLine ((chars! "S2_") ++ s) = some (.s2, s) ∧ before (chars! "_history") s = s := by
    decide +kernel
  intro s hs hn
  obtain ⟨a, b, c⟩ := key s hs hn
  refine ⟨a, b, fun v => ?_⟩
  simp only [attr, assigned, List.map_cons, List.map_nil, c]
  simp

/-- The average carbon abundance at helium depletion is written, but read as something else. -/
theorem C82_scalars_violated : parseLine (chars! "S1_avg_c_in_c_core_at_He_depletion") = some (.s1, (chars! "avg_c")) := by decide +kernel

/-- The kinds of mass transfer in a grid, as text: after reading the value is a list of one text, and an attribute `mt` holds the
text. -/
theorem C82_mt_history_violated (v : V) : parseLine (chars! "mt_history_HMS_HMS") = some (.b, (chars! "mt_history_HMS_HMS")) ∧
    attr (assigned [((chars! "mt_history_HMS_HMS"), v)]) (chars! "mt_history_HMS_HMS") = some (.list [v]) ∧
    attr (assigned [((chars! "mt_history_HMS_HMS"), v)]) (chars! "mt") = some (.val v) := by
  have hb : before (chars! "_history") (chars! "mt_history_HMS_HMS") = (chars! "mt") := by decide +kernel
  refine ⟨by decide +kernel, ?_, ?_⟩ <;> simp only [attr, assigned, List.map_cons, List.map_nil, hb] <;> rfl

/-! ### Data types of the line -/

/-- A pattern that does not occur is not replaced. -/
theorem repl_absent {pat rep : Name} : ∀ {s : Name}, isIn pat s = false → Channel.repl pat rep 0 s = s
  | [], _ => rfl
  | c :: s, h => by
    have h1 : pat.isPrefixOf (c :: s) = false := by
      unfold isIn at h
      rw [List.any_eq_false] at h
      have := h (c :: s) (by simp [List.mem_tails])
      exact Bool.eq_false_iff.2 this
    have h2 : isIn pat s = false := by
      unfold isIn at h ⊢
      rw [List.any_eq_false] at h ⊢
      intro t ht
      exact h t ((List.mem_tails _ _).2 (((List.mem_tails _ _).1 ht).trans (List.suffix_cons _ _)))
    simp only [Channel.repl, h1, Bool.false_eq_true, if_false, repl_absent h2]

/-- A suffix `_` with another letter is taken off, if it does not occur before. -/
theorem repl_suffix {a : Char} (ha : a ≠ '_') : ∀ {s : Name}, isIn ['_', a] s = false → Channel.repl ['_', a] [] 0 (s ++ ['_', a]) = s
  | [], _ => by simp [Channel.repl, List.isPrefixOf]
  | c :: s, h => by
    have h1 : ['_', a].isPrefixOf ((c :: s) ++ ['_', a]) = false := by
      unfold isIn at h
      rw [List.any_eq_false] at h
      have h0 := h (c :: s) (by simp [List.mem_tails])
      cases s with
      | nil => simp [List.isPrefixOf, ha]
      | cons d s => simpa [List.isPrefixOf] using h0
    have h2 : isIn ['_', a] s = false := by
      unfold isIn at h ⊢
      rw [List.any_eq_false] at h ⊢
      intro t ht
      exact h t ((List.mem_tails _ _).2 (((List.mem_tails _ _).1 ht).trans (List.suffix_cons _ _)))
    have h3 := repl_suffix ha h2
    simp only [List.cons_append] at h1 ⊢
    simp only [Channel.repl, h1, Bool.false_eq_true, if_false, h3]

/-- The data type of the first value of a column of the binary is that declared for the column, for every dictionary of types and
every name, as long as the name contains none of `_i`, `_f`, `S1_`, `S2_`. -/
theorem C82_types_partial {D : Type} (dict : Name → Option D) {k : Name} (hi : isIn (chars! "_i") k = false) (hf : isIn (chars! "_f") k = false)
    (h1 : isIn (chars! "S1_") k = false) (h2 : isIn (chars! "S2_") k = false) : found dict (k ++ (chars! "_i")) = dict k := by
  unfold found strip
  have e : (chars! "_i") = ['_', 'i'] := by decide +kernel
  rw [e] at hi ⊢
  rw [repl_suffix (by decide) hi, repl_absent hf, repl_absent h1, repl_absent h2]

example : found dtypeB (chars! "mass_transfer_case_i") = some .string :=
  C82_types_partial dtypeB (k := (chars! "mass_transfer_case")) (by decide +kernel) (by decide +kernel) (by decide +kernel) (by decide +kernel)

/-- Every property of binaries, and every property of stars that is not a number, finds its type for first and last value. -/
theorem C82_types_standard : (∀ p ∈ binaryProps, found dtypeB (p ++ (chars! "_i")) = dtypeB p ∧ found dtypeB (p ++ (chars! "_f")) = dtypeB p) ∧
    ∀ pre ∈ [(chars! "S1_"), (chars! "S2_")], strip (pre ++ (chars! "state") ++ (chars! "_i")) = (chars! "state") ∧
      strip (pre ++ (chars! "state") ++ (chars! "_f")) = (chars! "state") := by
  decide +kernel

/-- A column of text declared by the user whose name contains `_i` has no type, so that it is converted to numbers. -/
theorem C82_types_violated : ∃ (dict : Name → Option Dt) (k : Name), dict k = some .string ∧ found dict (k ++ (chars! "_i")) = Option.none :=
  ⟨fun k => if k = (chars! "step_info") then some .string else Option.none, (chars! "step_info"), by decide +kernel, by decide +kernel⟩

/-- A line without the mark of failures is refused with a key error, whatever else it holds. -/
theorem C82_unmarked (nm : Name) (row : List (Name × V)) (h1 : ∃ c ∈ row, (parseLine c.1).isNone = false)
    (h2 : ∀ c ∈ row, isIn (chars! "S1_natal_kick_array") c.1 = false ∧ isIn (chars! "S2_natal_kick_array") c.1 = false)
    (h3 : ∀ c ∈ row, c.1 ≠ (chars! "FAILED")) : fromOneline (some nm) row = .error .key := by
  have ha : (row.all fun c => (parseLine c.1).isNone) = false := by
    obtain ⟨c, hc, hn⟩ := h1
    exact List.all_eq_false.2 ⟨c, hc, by simp [hn]⟩
  have o1 : (row.any fun c => isIn ((chars! "S1") ++ (chars! "_natal_kick_array")) c.1) = false :=
    List.any_eq_false.2 fun c hc => by
      have := (h2 c hc).1
      rw [show (chars! "S1_natal_kick_array") = (chars! "S1") ++ (chars! "_natal_kick_array") from by decide +kernel] at this
      rw [this]; exact Bool.false_ne_true
  have o2 : (row.any fun c => isIn ((chars! "S2") ++ (chars! "_natal_kick_array")) c.1) = false :=
    List.any_eq_false.2 fun c hc => by
      have := (h2 c hc).2
      rw [show (chars! "S2_natal_kick_array") = (chars! "S2") ++ (chars! "_natal_kick_array") from by decide +kernel] at this
      rw [this]; exact Bool.false_ne_true
  have hf : (row.find? fun c => c.1 == (chars! "FAILED")) = Option.none := by
    rw [List.find?_eq_none]
    intro c hc
    rw [beq_iff_eq]
    exact h3 c hc
  unfold fromOneline
  dsimp only
  simp only [ha, o1, o2, hf, Bool.false_eq_true, if_false, Bool.false_and, Bool.or_false]

example : fromOneline (some []) [((chars! "separation_i"), V.none)] = .error .key :=
  C82_unmarked [] _ ⟨((chars! "separation_i"), V.none), List.mem_singleton.2 rfl, by decide +kernel⟩
    (fun c hc => by rw [List.mem_singleton.1 hc]; decide +kernel) (fun c hc => by rw [List.mem_singleton.1 hc]; decide +kernel)

end Verif.Frame
