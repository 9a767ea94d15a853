import Verif.FlowChart
/-!
Kernel check of the complete default flow chart table (20·20·8·22 keys) against `routeSpec`.
-/
namespace Verif.FlowChart

set_option maxRecDepth 100000 in
theorem table_check : allKeys defaultLoops (fun k o => o == routeSpec k) = true := by decide +kernel

/-- The dictionary built by the overwriting loops is the decision list `routeSpec`. -/
theorem defaultChart_eq_routeSpec (k : Key) : defaultChart k = routeSpec k := by
  have h := of_allKeys table_check k
  simpa [defaultChart] using h

set_option maxRecDepth 100000 in
theorem needs_check : allKeys defaultLoops (fun k o => match o with
    | some st => stepNeeds k st && !undefinedStates k
    | none => true) = true := by decide +kernel

/-- Boolean check over the table and its mirror image. -/
def allMirror (ls : List Loop) (p : Key → Option Step → Option Step → Bool) : Bool :=
  Ev.all.all fun e => BState.all.all fun b =>
    let sub := ls.filter fun l => l.es.contains e && l.bs.contains b
    let sub' := ls.filter fun l => l.es.contains e.mirror && l.bs.contains b.mirror
    Star.all.all fun s1 => Star.all.all fun s2 =>
      p ⟨s1, s2, b, e⟩ (look sub none s1 s2) (look sub' none s2 s1)

theorem of_allMirror {ls : List Loop} {p : Key → Option Step → Option Step → Bool}
    (h : allMirror ls p = true) (k : Key) :
    p k (runLoops ls (fun _ => none) k) (runLoops ls (fun _ => none) k.mirror) = true := by
  obtain ⟨s1, s2, b, e⟩ := k
  have h1 := List.all_eq_true.1 h e (Ev.mem_all e)
  have h2 := List.all_eq_true.1 h1 b (BState.mem_all b)
  have h3 := List.all_eq_true.1 h2 s1 (Star.mem_all s1)
  have h4 := List.all_eq_true.1 h3 s2 (Star.mem_all s2)
  simp only [Key.mirror]
  rw [runLoops_eq_look, runLoops_eq_look]
  exact h4

set_option maxRecDepth 100000 in
theorem mirror_check : allMirror defaultLoops (fun k o o' =>
    o == o' || (k.b == .contact && (isNormal k.s1 != isNormal k.s2))) = true := by decide +kernel

end Verif.FlowChart
