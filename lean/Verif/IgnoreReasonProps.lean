import Verif.IgnoreReason
/-!
Property theorems for C11.
-/
namespace Verif.IgnoreReason

/-- Reports accumulated so far plus the ones of `ops`, with resets. -/
theorem run_holds (o : IR) (l : List String) (h : Holds o l) (ops : List (String × Option String)) :
    Holds (run o ops)
      (if ops.any (fun p => p.1 == "reason" && p.2 == none) then sinceReset ops else l ++ sinceReset ops) := by
  induction ops generalizing o l with
  | nil => simpa [run, sinceReset] using h
  | cons p ops ih =>
    obtain ⟨n, v⟩ := p
    by_cases hn : n = "reason"
    · subst hn
      cases v with
      | none =>
        have e : setattr o "reason" none = .ok ⟨none, none⟩ := by simp [setattr]
        have h0 : Holds ⟨none, none⟩ [] := by
          have : best [] = none := (best_none []).2 (by simp)
          exact ⟨by rw [this], by rw [this]; rfl⟩
        simp only [run, e]
        have := ih _ _ h0
        by_cases hr : ("reason", none) ∈ ops
        · simpa [sinceReset, hr] using this
        · simpa [sinceReset, hr] using this
      | some v =>
        by_cases hv : v ∈ priority
        · obtain ⟨o', he, ho'⟩ := setattr_holds o l h v hv
          simp only [run, he]
          have := ih _ _ ho'
          by_cases hr : ("reason", none) ∈ ops
          · simpa [sinceReset, hr] using this
          · simpa [sinceReset, hr] using this
        · have he : setattr o "reason" (some v) = .error .notRecognised := by simp [setattr, hv]
          have ho' : Holds o (l ++ [v]) := by
            obtain ⟨h1, h2⟩ := h
            exact ⟨by rw [best_append_unknown l v hv, h1], by rw [best_append_unknown l v hv, h2]⟩
          simp only [run, he]
          have := ih _ _ ho'
          by_cases hr : ("reason", none) ∈ ops
          · simpa [sinceReset, hr] using this
          · simpa [sinceReset, hr] using this
    · have he : setattr o n v = .ok o := by simp [setattr, hn]
      simp only [run, he]
      have := ih _ _ h
      by_cases hr : ("reason", none) ∈ ops
      · simpa [sinceReset, hr, hn] using this
      · simpa [sinceReset, hr, hn] using this

/-- C11.  After any sequence of assignments to any attributes of a new object (known and unknown reasons, resets,
other attributes) the stored reason is the most important one among those reported since the last reset. -/
theorem C11_most_important_reason (ops : List (String × Option String)) :
    (run fresh ops).reason = best (sinceReset ops) := by
  have h0 : Holds fresh [] := by
    have : best [] = none := (best_none []).2 (by simp)
    exact ⟨by rw [this]; rfl, by rw [this]; rfl⟩
  have := (run_holds fresh [] h0 ops).1
  simpa using this

/-- C11.  `bool(reason)` is true exactly when some known reason was reported since the last reset. -/
theorem C11_truth (ops : List (String × Option String)) :
    toBool (run fresh ops) = true ↔ ∃ r ∈ sinceReset ops, r ∈ priority := by
  unfold toBool
  rw [C11_most_important_reason]
  cases h : best (sinceReset ops) with
  | none => simpa using (best_none _).1 h
  | some b => simpa using ⟨b, (best_mem _ _ h).2, (best_mem _ _ h).1⟩

/-- C11.  The result does not depend on the order in which the reasons were reported, nor on repetitions. -/
theorem C11_order_irrelevant (l l' : List String) (h : ∀ r, r ∈ l ↔ r ∈ l') :
    (run fresh (l.map fun r => ("reason", some r))).reason = (run fresh (l'.map fun r => ("reason", some r))).reason := by
  have hs : ∀ l : List String, sinceReset (l.map fun r => ("reason", some r)) = l := by
    intro l
    induction l with
    | nil => rfl
    | cons a l ih =>
      simp only [List.map_cons, sinceReset, ih]
      simp
  rw [C11_most_important_reason, C11_most_important_reason, hs, hs]
  unfold best
  simp only [h]

/-- C11.  In any reachable object, an assignment raises exactly for an unknown reason. -/
theorem C11_only_unknown_rejected (ops : List (String × Option String)) (n : String) (v : Option String) :
    (∃ e, setattr (run fresh ops) n v = .error e) ↔ n = "reason" ∧ ∃ r, v = some r ∧ r ∉ priority := by
  have h0 : Holds fresh [] := by
    have : best [] = none := (best_none []).2 (by simp)
    exact ⟨by rw [this]; rfl, by rw [this]; rfl⟩
  have hh := run_holds fresh [] h0 ops
  constructor
  · rintro ⟨e, he⟩
    have hn : n = "reason" := by
      by_contra hn; simp [setattr, hn] at he
    subst hn
    cases v with
    | none => simp [setattr] at he
    | some r =>
      refine ⟨rfl, r, rfl, fun hr => ?_⟩
      obtain ⟨o', ho, _⟩ := setattr_holds _ _ hh r hr
      rw [ho] at he; cases he
  · rintro ⟨rfl, r, rfl, hr⟩
    exact ⟨.notRecognised, by simp [setattr, hr]⟩

example : (run fresh [("reason", some "ignored_no_RLO"), ("reason", some "nonsense"), ("order", some "0"),
    ("reason", some "corrupted_history2"), ("reason", some "ignored_no_final_profile")]).reason
    = some "corrupted_history2" := by decide
example : sinceReset [("reason", some "corrupted_history1"), ("reason", none), ("reason", some "ignored_no_RLO")]
    = ["ignored_no_RLO"] := by decide

end Verif.IgnoreReason
