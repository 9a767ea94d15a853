import Verif.Flip
import Verif.FlowChartProps
/-!
Property theorems for `flip_stars`: C08.
-/
namespace Verif.Flip

theorem flipState_eq (s : String) : flipState s = relabelState s := by
  unfold flipState relabelState
  split
  · subst_vars; rfl
  · split
    · subst_vars; rfl
    · split <;> simp_all

theorem flipStateEntry_eq (s : String) : flipStateEntry s = relabelState s := by
  rw [← flipState_eq]
  unfold flipStateEntry flipState
  by_cases h1 : s = "RLO1"
  · subst h1; rfl
  · by_cases h2 : s = "RLO2"
    · subst h2; rfl
    · simp [h1, h2]

theorem relabelState_invol (s : String) : relabelState (relabelState s) = s := by
  rw [← flipState_eq, ← flipState_eq]
  unfold flipState
  by_cases h1 : s = "RLO1"
  · subst h1; rfl
  · by_cases h2 : s = "RLO2"
    · subst h2; rfl
    · simp [h1, h2]

/-- The current event and the history entries are treated alike. -/
theorem flipEventEntry_eq (e : Option String) : flipEventEntry e = flipEvent e := by
  by_cases h1 : e = some "CC1"
  · subst h1; rfl
  by_cases h2 : e = some "CC2"
  · subst h2; rfl
  by_cases h3 : e = some "oRLO1"
  · subst h3; rfl
  by_cases h4 : e = some "oRLO2"
  · subst h4; rfl
  by_cases h5 : e = some "oCE1"
  · subst h5; rfl
  by_cases h6 : e = some "oCE2"
  · subst h6; rfl
  simp [flipEventEntry, flipEvent, swapEntry, *]

theorem flipEvent_invol (e : Option String) : flipEvent (flipEvent e) = e := by
  by_cases h1 : e = some "CC1"
  · subst h1; rfl
  by_cases h2 : e = some "CC2"
  · subst h2; rfl
  by_cases h3 : e = some "oRLO1"
  · subst h3; rfl
  by_cases h4 : e = some "oRLO2"
  · subst h4; rfl
  by_cases h5 : e = some "oCE1"
  · subst h5; rfl
  by_cases h6 : e = some "oCE2"
  · subst h6; rfl
  have : flipEvent e = e := by simp [flipEvent, *]
  rw [this, this]

theorem flipEvent_eq_relabel (e : Option String) (h : ∀ s, e = some s → s ∉ forgotten) :
    flipEvent e = relabelEvent e := by
  cases e with
  | none => rfl
  | some s =>
    have hs := h s rfl
    by_cases h1 : s = "CC1"
    · subst h1; rfl
    by_cases h2 : s = "CC2"
    · subst h2; rfl
    by_cases h3 : s = "oRLO1"
    · subst h3; rfl
    by_cases h4 : s = "oRLO2"
    · subst h4; rfl
    by_cases h5 : s = "oCE1"
    · subst h5; rfl
    by_cases h6 : s = "oCE2"
    · subst h6; rfl
    simp only [forgotten, List.mem_cons, List.not_mem_nil, or_false, not_or] at hs
    obtain ⟨n1, n2, n3, n4, n5, n6⟩ := hs
    have e1 : flipEvent (some s) = some s := by simp [flipEvent, *]
    have e2 : eventPairs.find? (fun p => p.1 == s || p.2 == s) = none := by
      rw [List.find?_eq_none]
      intro p hp
      simp only [eventPairs, List.mem_cons, List.not_mem_nil, or_false] at hp
      rcases hp with rfl | rfl | rfl | rfl | rfl | rfl <;> simp [Ne.symm, *] <;> constructor <;> (intro h; subst h; contradiction)
    rw [e1, relabelEvent, e2]

/-- C08.  Flipping twice gives back the binary, with all its columns. -/
theorem C08_involution {S X : Type} (b : Binary S X) : flip (flip b) = b := by
  have hs : b.stateHistory.map (flipStateEntry ∘ flipStateEntry) = b.stateHistory := by
    have : (flipStateEntry ∘ flipStateEntry) = id := by
      funext s; simp only [Function.comp, flipStateEntry_eq, relabelState_invol, id]
    rw [this, List.map_id]
  have he : b.eventHistory.map (flipEventEntry ∘ flipEventEntry) = b.eventHistory := by
    have : (flipEventEntry ∘ flipEventEntry) = id := by
      funext s; simp only [Function.comp, flipEventEntry_eq, flipEvent_invol, id]
    rw [this, List.map_id]
  cases b
  simp only [flip, List.map_map, flipState_eq, relabelState_invol, flipEvent_invol] at *
  simp only [hs, he]

/-- C08 (partial).  The stars, the state and its history, the synchronisation times and overflows (values and
histories) are exchanged completely; events and their history are relabelled completely unless one of them is a
double common envelope, merging or matching event.  `mass_transfer_case` is not relabelled. -/
theorem C08_relabels_partial {S X : Type} (b : Binary S X)
    (h1 : ∀ s, b.event = some s → s ∉ forgotten) (h2 : ∀ s, some s ∈ b.eventHistory → s ∉ forgotten) :
    (flip b).star1 = b.star2 ∧ (flip b).star2 = b.star1 ∧ (flip b).state = relabelState b.state ∧
    (flip b).stateHistory = b.stateHistory.map relabelState ∧
    (flip b).event = relabelEvent b.event ∧ (flip b).eventHistory = b.eventHistory.map relabelEvent ∧
    (flip b).tSyncRad1 = b.tSyncRad2 ∧ (flip b).tSyncRad2 = b.tSyncRad1 ∧
    (flip b).tSyncConv1 = b.tSyncConv2 ∧ (flip b).tSyncConv2 = b.tSyncConv1 ∧
    (flip b).rlOverflow1 = b.rlOverflow2 ∧ (flip b).rlOverflow2 = b.rlOverflow1 ∧
    (flip b).tSyncRad1H = b.tSyncRad2H ∧ (flip b).tSyncRad2H = b.tSyncRad1H ∧
    (flip b).tSyncConv1H = b.tSyncConv2H ∧ (flip b).tSyncConv2H = b.tSyncConv1H ∧
    (flip b).rlOverflow1H = b.rlOverflow2H ∧ (flip b).rlOverflow2H = b.rlOverflow1H := by
  refine ⟨rfl, rfl, flipState_eq _, ?_, flipEvent_eq_relabel _ h1, ?_, rfl, rfl, rfl, rfl, rfl, rfl, rfl, rfl, rfl,
    rfl, rfl, rfl⟩
  · exact List.map_congr_left fun s _ => flipStateEntry_eq s
  · refine List.map_congr_left fun e he => ?_
    rw [flipEventEntry_eq]
    exact flipEvent_eq_relabel e fun s hs => h2 s (hs ▸ he)

/-- C08 is false in full: each double-CE, merging or matching event keeps its star number. -/
theorem C08_forgotten_events_violated {S X : Type} (b : Binary S X) (s : String) (hs : s ∈ forgotten)
    (he : b.event = some s) : (flip b).event = some s ∧ relabelEvent b.event ≠ some s := by
  simp only [flip, he]
  simp only [forgotten, List.mem_cons, List.not_mem_nil, or_false] at hs
  rcases hs with rfl | rfl | rfl | rfl | rfl | rfl <;> decide

/-- Consequence: the binary state and the event then disagree about the star, and the flow chart has no successor:
a star-1 double common envelope is known to the chart, its flipped version is not. -/
theorem C08_flipped_doubleCE_unroutable :
    FlowChart.defaultChart ⟨.hShellH, .hShellH, .RLO1, .oDoubleCE1⟩ = some .CE ∧
    flipState "RLO1" = "RLO2" ∧ flipEvent (some "oDoubleCE1") = some "oDoubleCE1" ∧
    FlowChart.defaultChart ⟨.hShellH, .hShellH, .RLO2, .oDoubleCE1⟩ = none := by
  rw [FlowChart.C01_routing, FlowChart.C01_routing]
  exact ⟨rfl, rfl, by decide, rfl⟩

/-- C08 is false for the mass-transfer case, which also names the donor. -/
theorem C08_mt_case_violated {S X : Type} (b : Binary S X) (h : b.massTransferCase = "case_A1") :
    (flip b).massTransferCase = "case_A1" := h

example : ∃ b : Binary String Nat, b.event = some "CC1" ∧ b.state = "RLO1" ∧
    (flip b).event = some "CC2" ∧ (flip b).state = "RLO2" ∧ (flip b).eventHistory = [none, some "oRLO2"] :=
  ⟨⟨"a", "b", "RLO1", some "CC1", [], [none, some "oRLO1"], 0, 1, 2, 3, 4, 5, [], [], [], [], [], [], "None"⟩,
    rfl, rfl, rfl, rfl, rfl⟩

end Verif.Flip
