import Verif.PlotSym

/-!
# C174: the symbols of a plot tell how runs ended
-/

namespace Verif.PlotSym

open TermFlags

theorem pool_stable : ∀ f ∈ tf1Stable, (get ends f).map (·.text) = some "Reached end life" := by decide +kernel
theorem pool_unstable : ∀ f ∈ tf1Unstable, (get ends f).map (fun e => (look e, e.text)) = some (("D", some "black"), "Unstable RLOF") := by decide +kernel
theorem pool_initial : ∀ f ∈ tf1Initial, (get ends f).map (fun e => (look e, e.text)) = some ((".", some "black"), "Initial RLOF") := by
  decide +kernel
theorem pool_error : ∀ f ∈ tf1Error, (get ends f).map look = some ("x", some "red") := by decide +kernel

/-- A run whose class is stable is shown as one that reached the end of its life, whatever its flags. -/
theorem C174_stable (f : String) (g : List Char) (h : inferClass f g = .stable ∨ inferClass f g = .stableReverse) :
    (get ends f).map (·.text) = some "Reached end life" := by
  apply pool_stable
  unfold inferClass at h
  by_contra hn
  simp only [hn, if_false] at h
  split_ifs at h <;> simp at h

/-- A run whose class is unstable is shown by a black diamond with the text of unstable overflow. -/
theorem C174_unstable (f : String) (g : List Char) (h : inferClass f g = .unstable) :
    (get ends f).map (fun e => (look e, e.text)) = some (("D", some "black"), "Unstable RLOF") := by
  apply pool_unstable
  unfold inferClass at h
  by_contra hn
  simp only [hn, if_false] at h
  split_ifs at h

/-- A run that did not converge is a red cross; no other class that the pools know gives one. -/
theorem C174_failed (f : String) (g : List Char) (h : inferClass f g = .notConverged) : (get ends f).map look = some ("x", some "red") := by
  apply pool_error
  unfold inferClass at h
  by_contra hn
  simp only [hn, if_false] at h
  split_ifs at h

theorem C174_failed_only (f : String) (g : List Char)
    (h : inferClass f g = .stable ∨ inferClass f g = .stableReverse ∨ inferClass f g = .unstable) :
    (get ends f).map (·.marker) ≠ some "x" := by
  have hm : f ∈ tf1Stable ++ tf1Unstable := by
    unfold inferClass at h
    by_contra hn
    rw [List.mem_append, not_or] at hn
    simp only [hn.1, hn.2, if_false] at h
    split_ifs at h <;> simp at h
  exact (by decide +kernel : ∀ f ∈ tf1Stable ++ tf1Unstable, (get ends f).map (·.marker) ≠ some "x") f hm

/-- A run that overflows at the start is a black dot, if it is known by its first flag. -/
theorem C174_initial_partial (f : String) (g : List Char) (h : inferClass f g = .initialMT) (hg : g ≠ (chars! "initial_RLOF")) :
    (get ends f).map (fun e => (look e, e.text)) = some ((".", some "black"), "Initial RLOF") := by
  apply pool_initial
  unfold inferClass at h
  by_contra hn
  simp only [hn, hg, or_false, if_false] at h
  split_ifs at h

/-- Known by its second flag only, it may be shown as anything, such as the end of a life. -/
theorem C174_initial_violated : ∃ (f : String) (g : List Char), inferClass f g = .initialMT ∧ (get ends f).map (·.text) = some "Reached end life" :=
  ⟨"max_age", (chars! "initial_RLOF"), by decide +kernel, by decide +kernel⟩

/-- Not every symbol of an unstable run belongs to a run of that class, and a star on the thermally pulsing giant branch is shown with the
text of an overflow at the start: the classes of all these are unknown. -/
theorem C174_unknown_violated : (∀ f ∈ ["overflow from L2 surface for q<1", "reached maximum mass transfer rate: 10.0d0", "Reached the critical mt rate",
      "Terminate because accretor (r-rl)/rl > accretor_overflow_terminate"],
      (get ends f).map (·.text) = some "Unstable RLOF" ∧ inferClass f (chars! "case_A1") = .unknown) ∧
    (get ends "Reached TPAGB").map (fun e => (e.marker, e.text)) = some ("s", "Initial RLOF") ∧
    inferClass "Reached TPAGB" (chars! "case_A1") = .unknown := by
  decide +kernel

/-- These four and the two ignitions of neon, the primary's carbon of old runs, and the overflows of old runs at the start are all: a code
with the text of a class has that class, unless it is one of these. -/
theorem C174_codes : ∀ p ∈ ends,
    (p.2.text = "Reached end life" → p.1 ∈ tf1Stable ∨ p.1 ∈ ["terminate due to primary depleting carbon (inverse sn?)",
      "offcenter neon ignition for primary", "offcenter neon ignition for secondary"]) ∧
    (p.2.text = "Unstable RLOF" → p.1 ∈ tf1Unstable ∨ p.1 ∈ ["overflow from L2 surface for q<1", "reached maximum mass transfer rate: 10.0d0",
      "Reached the critical mt rate", "Terminate because accretor (r-rl)/rl > accretor_overflow_terminate"]) ∧
    (p.2.text = "Not converged" → p.1 ∈ tf1Error ∨ p.1 = "Not converged") := by
  decide +kernel

/-- The star that reached its end is told by the marker: square for the primary, circle for the secondary. -/
theorem C174_star : (∀ p ∈ ends, (chars! "Primary").isPrefixOf p.1.toList = true → p.2.marker = "s") ∧
    (∀ p ∈ ends, (chars! "Secondary").isPrefixOf p.1.toList = true → p.2.marker = "o") ∧
    (∀ p ∈ ends, p.2.marker = "o" → p.1 = "offcenter neon ignition for secondary" ∨ (chars! "Secondary").isPrefixOf p.1.toList = true) := by
  decide +kernel

/-- The table for checks has the same codes, markers and texts, and shows in colours what is shown in colours. -/
theorem C174_debug : (∀ p ∈ ends, (get debug p.1).map (fun e => (e.marker, e.text)) = some (p.2.marker, p.2.text)) ∧
    (∀ p ∈ debug, (get ends p.1).map (fun e => (e.marker, e.text)) = some (p.2.marker, p.2.text)) ∧
    ∀ f, ∀ e e', get ends f = some e → get debug f = some e' → e.colour = none → e'.colour = none := by
  refine ⟨by decide +kernel, by decide +kernel, ?_⟩
  intro f e e' h1 h2 h3
  exact (by decide +kernel : ∀ p ∈ ends, ∀ q ∈ debug, p.1 = q.1 → p.2.colour = none → q.2.colour = none) _ (get_mem h1) _ (get_mem h2) rfl h3

/-- The classes have symbols under their own names, except the class of reverse mass transfer and the unknown one. -/
theorem C174_classes_partial (c : IC) : ((get classes (className c)).map (·.text) = some (className c) ∧
      (get classErrors (className c)).map (·.text) = some (className c)) ↔ c ≠ .stableReverse ∧ c ≠ .unknown := by
  cases c <;> decide +kernel

theorem C174_classes_violated (f : String) (g : List Char) (h : inferClass f g = .stableReverse) :
    get classes (className (inferClass f g)) = none ∧ get classErrors (className (inferClass f g)) = none := by
  rw [h]; decide +kernel

/-- The classes that have symbols have different ones. -/
theorem C174_classes_differ : (classes.map fun p => look p.2).Nodup ∧ (classErrors.map fun p => look p.2).Nodup ∧
    (kinds.map fun p => look p.2).Nodup ∧ (remnants.map fun p => look p.2).Nodup := by decide +kernel

/-- Both stars have the same symbols for the same states, except that only the table of the second star has the state close to the depletion
of carbon. -/
theorem C174_stars : (∀ p ∈ star1, (get star2 p.1).map look = some (look p.2)) ∧
    ∀ p ∈ star2, p.1 = "H-rich_Near_Core_C_depleted" ∨ (get star1 p.1).map look = some (look p.2) := by
  decide +kernel

/-- The curves are coloured by the second table. -/
theorem C174_curves : ∀ p ∈ star2, Curves.colour p.1.toList = p.2.colour.map String.toList := by decide +kernel

/-- The state that is in one table only, and the text with a misspelling. -/
theorem C174_stars_violated : get star1 "H-rich_Near_Core_C_depleted" = none ∧
    (get star1 "ignored_no_RLO").map (·.text) ≠ (get star2 "ignored_no_RLO").map (·.text) := by decide +kernel

/-- A legend has every text once, nothing that is not shown, and a line for each symbol shown, whatever is plotted in whatever order. -/
theorem C174_legend (es : List Entry) : ((legend es).map (·.text)).Nodup ∧ (∀ g ∈ legend es, g ∈ es) ∧
    ∀ e ∈ es, ∃ g ∈ legend es, g.text = e.text := by
  refine ⟨foldl_nodup es [] (by simp), ?_, foldl_text es []⟩
  intro g hg
  rcases foldl_from es [] g hg with h | h
  · cases h
  · exact h

/-- If the entries of a table with the same text look the same, the line of the legend looks like the symbol in the plot. -/
theorem C174_faithful {t : Table} (ht : Consistent t) (fs : List String) (es : List Entry) (h : fs.map (get t) = es.map some) :
    ∀ e ∈ es, ∃ g ∈ legend es, g.text = e.text ∧ look g = look e := by
  have hin : ∀ e ∈ es, ∃ f, (f, e) ∈ t := by
    intro e he
    have h1 : some e ∈ fs.map (get t) := by rw [h]; exact List.mem_map_of_mem he
    obtain ⟨f, _, hf⟩ := List.mem_map.mp h1
    exact ⟨f, get_mem hf⟩
  intro e he
  obtain ⟨g, hg, hgt⟩ := (C174_legend es).2.2 e he
  obtain ⟨f1, h1⟩ := hin g ((C174_legend es).2.1 g hg)
  obtain ⟨f2, h2⟩ := hin e he
  exact ⟨g, hg, hgt, ht _ h1 _ h2 hgt⟩

/-- So it is for the states of the stars, the classes, the kinds of supernova and the remnants. -/
theorem C174_consistent : Consistent star1 ∧ Consistent star2 ∧ Consistent classes ∧ Consistent classErrors ∧ Consistent kinds ∧ Consistent remnants := by
  decide +kernel

/-- Not for the first flag: when runs of both stars end, the legend has only the square, or only the circle, as the flags come. -/
theorem C174_legend_violated : ¬ Consistent ends ∧ ∃ a b, get ends "Primary has depleted central carbon" = some a ∧
    get ends "Secondary has depleted central carbon" = some b ∧ legend [a, b] = [a] ∧ legend [b, a] = [b] ∧ look a ≠ look b := by
  refine ⟨by decide +kernel, ⟨"s", 2, none, "Reached end life"⟩, ⟨"o", 2, none, "Reached end life"⟩, ?_⟩
  decide +kernel

/-- All codes of the first flag but these have one look per text. -/
theorem C174_ends_partial : Consistent (ends.filter fun p => p.2.text ≠ "Reached end life" ∧ p.1 ≠ "Reached TPAGB") := by decide +kernel

example : inferClass "Primary has depleted central carbon" (chars! "case_A1/B1") = .stable ∧
    inferClass "max_age" (chars! "case_A1/A2") = .stableReverse ∧ inferClass "Reached maximum mass transfer rate: 1d-1" (chars! "case_B1") = .unstable ∧
    inferClass "min_timestep_limit" (chars! "case_B1") = .notConverged ∧ inferClass "forced_initial_RLO" (chars! "None") = .initialMT := by
  decide +kernel

/-- Three states plotted, two with one symbol: two lines in the legend. -/
example : ∃ es, (["BH", "H-rich_Core_H_burning", "ignored_no_RLO"].map (get star1) = es.map some) ∧ (legend es).map (·.text) = ["BH", "H-rich core H burning"] :=
  ⟨[⟨"*", 1, some "black", "BH"⟩, ⟨"s", 2, some "tab:olive", "H-rich core H burning"⟩, ⟨"s", 2, some "tab:olive", "H-rich core H burning"⟩],
    by decide +kernel, by decide +kernel⟩

/-- Lines are twice as wide for squares, circles and triangles as for crosses, pluses, stars and diamonds. -/
theorem C174_widths : ∀ t ∈ [ends, debug, star1, star2, classErrors], ∀ p ∈ t,
    (p.2.marker ∈ ["s", "o", "v"] → p.2.width = 2) ∧ (p.2.marker ∈ ["x", "*", "D", "+"] → p.2.width = 1) := by
  decide +kernel

/-- The widths of the other symbols. -/
theorem C174_widths_rest : (∀ p ∈ ends, p.2.marker = "." → p.2.width = 1) ∧ (∀ p ∈ debug, p.2.marker = "." → p.2.width = 3 / 2) ∧
    (∀ p ∈ classes ++ kinds ++ remnants, p.2.width = 2) ∧ (∀ p ∈ classErrors, p.2.marker = "." → p.2.width = 1) := by
  decide +kernel

/-- For both stars the colour tells the stage of the core and the marker the surface: stars with and without hydrogen at the same stage have
one colour, squares and circles. -/
theorem C174_stage : ∀ t ∈ [star1, star2], ∀ b ∈ ["Core_He_burning", "Core_He_depleted", "Core_C_burning", "Core_C_depleted"], ∃ c,
    (get t ("H-rich_" ++ b)).map look = some ("s", some c) ∧ (get t ("stripped_He_" ++ b)).map look = some ("o", some c) := by
  intro t ht b hb
  simp only [List.mem_cons, List.not_mem_nil, or_false] at ht hb
  rcases ht with rfl | rfl <;> rcases hb with rfl | rfl | rfl | rfl
  · exact ⟨"tab:blue", by decide +kernel⟩
  · exact ⟨"tab:green", by decide +kernel⟩
  · exact ⟨"tab:pink", by decide +kernel⟩
  · exact ⟨"tab:brown", by decide +kernel⟩
  · exact ⟨"tab:blue", by decide +kernel⟩
  · exact ⟨"tab:green", by decide +kernel⟩
  · exact ⟨"tab:pink", by decide +kernel⟩
  · exact ⟨"tab:brown", by decide +kernel⟩

/-- A cross is an unknown state, a star a compact object; the texts of the others begin with the surface their names begin with. -/
theorem C174_surface : ∀ t ∈ [star1, star2], ∀ p ∈ t, (p.2.marker = "x" ↔ p.2.text = "unknown") ∧ (p.2.marker = "*" ↔ p.1 = "BH" ∨ p.1 = "NS") ∧
    (p.2.marker = "*" → p.2.text = p.1) ∧ (p.2.marker = "s" → (chars! "H-rich ").isPrefixOf p.2.text.toList = true) ∧
    (p.2.marker = "o" → (chars! "stripped He-star ").isPrefixOf p.2.text.toList = true ∧ (chars! "stripped_He_").isPrefixOf p.1.toList = true) := by
  decide +kernel

/-- The names of the tables of classes, kinds and remnants are the texts, but for runs without supernova. -/
theorem C174_names : (∀ p ∈ classes ++ classErrors, p.2.text = p.1) ∧
    ∀ p ∈ kinds ++ remnants, p.2.text = if p.1 = "None" then "intial MT / unstable MT / not converged" else p.1 := by
  decide +kernel

end Verif.PlotSym
