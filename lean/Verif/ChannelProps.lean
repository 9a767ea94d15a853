import Verif.Chars
import Verif.Channel
/-!
Property C64: formation channels.
-/
namespace Verif.Channel

/-- `NoMatch` as a test. -/
def noMatch (T : List (List Char)) (w t : List Char) : Bool :=
  decide (t = w) || decide (Apart t w) ||
    match w.drop t.length with
    | [] => false
    | c :: x => t.isPrefixOf w && (decide (c ≠ '_') || T.all fun t' => decide (Apart t' x))

theorem noMatch_ok {T : List (List Char)} {w t : List Char} (h : noMatch T w t = true) : NoMatch T w t := by
  unfold noMatch at h
  simp only [Bool.or_eq_true, decide_eq_true_eq] at h
  rcases h with (h | h) | h
  · exact Or.inl h
  · exact Or.inr (Or.inl h)
  · right; right
    cases hd : w.drop t.length with
    | nil => rw [hd] at h; simp at h
    | cons c x =>
      rw [hd] at h
      simp only [Bool.and_eq_true, List.isPrefixOf_iff_prefix, Bool.or_eq_true, decide_eq_true_eq, List.all_eq_true] at h
      refine ⟨c, x, ?_, h.2⟩
      rw [← hd]
      exact (List.prefix_append_drop h.1)

/-- What the removal of one word needs. -/
def removable (w : String) (T : List String) : Bool :=
  T.all fun t => NoStart w.toList t.toList && noMatch (T.map String.toList) w.toList t.toList

theorem toList_filter (w : String) (es : List String) :
    (es.map String.toList).filter (· ≠ w.toList) = (es.filter (· ≠ w)).map String.toList := by
  induction es with
  | nil => rfl
  | cons e es ih =>
    by_cases h : e = w
    · subst h; rw [List.map_cons, List.filter_cons_of_neg (by simp), List.filter_cons_of_neg (by simp), ih]
    · have : e.toList ≠ w.toList := fun hc => h (String.toList_injective hc)
      rw [List.map_cons, List.filter_cons_of_pos (by simpa using this), List.filter_cons_of_pos (by simpa using h), ih, List.map_cons]

theorem remove_word (w e : String) (es : List String) (T : List String) (h0 : NoStart w.toList e.toList = true) (hT : removable w T = true)
    (hes : ∀ x ∈ es, x ∈ T) :
    repl ('_' :: w.toList) [] 0 (join ((e :: es).map String.toList)) = join ((e :: es.filter (· ≠ w)).map String.toList) := by
  unfold removable at hT
  rw [List.all_eq_true] at hT
  rw [List.map_cons, repl_join (T.map String.toList) _ _ _ h0, toList_filter, List.map_cons]
  · intro t ht
    rw [List.mem_map] at ht
    obtain ⟨x, hx, rfl⟩ := ht
    exact List.mem_map_of_mem (hes x hx)
  · intro t ht
    rw [List.mem_map] at ht
    obtain ⟨x, hx, rfl⟩ := ht
    have := hT x hx
    rw [Bool.and_eq_true] at this
    exact ⟨this.1, noMatch_ok this.2⟩

/-- The alphabet after removing the first `n` words. -/
def rest (n : ℕ) : List String := alphabet.filter (· ∉ removed.take n)

theorem alphabet_ok : removable "redirect_from_ZAMS" (rest 0) = true ∧ removable "redirect_from_CO_HMS_RLO" (rest 1) = true ∧
    removable "redirect_from_CO_HeMS_RLO" (rest 2) = true ∧ removable "redirect_from_CO_HeMS" (rest 3) = true ∧
    removable "CO_contact" (rest 4) = true := by
  decide +kernel

theorem first_ok : ∀ w ∈ removed, ∀ e ∈ alphabet, NoStart w.toList e.toList = true := by decide +kernel

/-- C64: for every sequence of events of a simulation the channel is the sequence of its events, joined by underscores, without
the redirections and contacts after the first event. -/
theorem C64_cleaned (e : String) (es : List String) (he : e ∈ alphabet) (hes : ∀ x ∈ es, x ∈ alphabet) :
    clean (join ((e :: es).map String.toList)) = join ((kept (e :: es)).map String.toList) := by
  obtain ⟨h0, h1, h2, h3, h4⟩ := alphabet_ok
  have hf := first_ok
  simp only [removed, List.forall_mem_cons] at hf
  obtain ⟨f0, f1, f2, f3, f4, _⟩ := hf
  have m0 : ∀ x ∈ es, x ∈ rest 0 := fun x hx => by simp [rest, hes x hx]
  have mem : ∀ (n : ℕ) (w : String) (l : List String), removed[n]? = some w → (∀ x ∈ l, x ∈ rest n) → ∀ x ∈ l.filter (· ≠ w), x ∈ rest (n + 1) := by
    intro n w l hw hl x hx
    rw [List.mem_filter] at hx
    have := hl x hx.1
    unfold rest at this ⊢
    rw [List.mem_filter] at this ⊢
    refine ⟨this.1, ?_⟩
    have h1 : x ∉ removed.take n := by simpa using this.2
    have h2 : x ≠ w := by simpa using hx.2
    rw [List.take_add_one, hw]
    simp [h1, h2]
  have m1 := mem 0 _ _ rfl m0
  have m2 := mem 1 _ _ rfl m1
  have m3 := mem 2 _ _ rfl m2
  have m4 := mem 3 _ _ rfl m3
  unfold clean
  simp only [removed, List.foldl_cons, List.foldl_nil]
  rw [remove_word _ e es _ (f0 e he) h0 m0, remove_word _ e _ _ (f1 e he) h1 m1, remove_word _ e _ _ (f2 e he) h2 m2,
    remove_word _ e _ _ (f3 e he) h3 m3, remove_word _ e _ _ (f4 e he) h4 m4]
  congr 2
  simp only [kept, List.filter_filter]
  congr 1
  apply List.filter_congr
  intro x _
  simp only [removed, List.mem_cons, List.not_mem_nil, or_false, not_or]
  by_cases a : x = "redirect_from_ZAMS" <;> by_cases b : x = "redirect_from_CO_HMS_RLO" <;> by_cases c : x = "redirect_from_CO_HeMS_RLO" <;>
    by_cases d : x = "redirect_from_CO_HeMS" <;> by_cases f : x = "CO_contact" <;> simp [a, b, c, d, f]

/-- The words of a channel with class are still events of the alphabet. -/
theorem words_alphabet (cls : Option String) (evs : List String) (h : ∀ x ∈ evs, x ∈ alphabet) : ∀ x ∈ words cls evs, x ∈ alphabet := by
  unfold words
  intro x hx
  by_cases hc : cls = some "oRLO1" ∨ cls = some "oRLO1-reverse"
  · rw [if_pos hc] at hx
    cases evs with
    | nil => simp at hx
    | cons e es =>
      simp only [List.mem_cons] at hx
      rcases hx with rfl | rfl | hx
      · exact h _ List.mem_cons_self
      · rcases hc with rfl | rfl <;> simp [alphabet]
      · exact h _ (List.mem_cons_of_mem _ hx)
  · rw [if_neg hc] at hx; exact h _ hx

/-- C64: the stored channel without mass-transfer history: first event, then the class if mass transfer in the first grid was stable, then the other
events without redirections and contacts, cut after 100 characters. -/
theorem C64_channel (hasMt : Bool) (cls c mt : Option String) (hcl : classOf cls = .ok c) (evs : List (Option String)) (e : String) (es : List String)
    (hev : evs.filterMap id = e :: es) (h : ∀ x ∈ e :: es, x ∈ alphabet) :
    channel false hasMt cls mt evs = .ok (some ((join ((kept (words c (e :: es))).map String.toList)).take 100)) := by
  have hw := words_alphabet c (e :: es) h
  unfold channel
  rw [hcl]
  simp only [hev, Bool.false_and, Bool.false_eq_true, if_false, reduceCtorEq]
  congr 3
  unfold debug
  generalize hws : words c (e :: es) = ws at hw
  cases ws with
  | nil =>
    exfalso
    unfold words at hws
    by_cases hc : c = some "oRLO1" ∨ c = some "oRLO1-reverse"
    · rw [if_pos hc] at hws; simp at hws
    · rw [if_neg hc] at hws; cases hws
  | cons a as => exact C64_cleaned a as (hw a List.mem_cons_self) fun x hx => hw x (List.mem_cons_of_mem _ hx)

theorem alphabet_apart : ∀ t ∈ alphabet.filter (· ≠ "redirect_from_CO_HeMS"), ∀ t' ∈ alphabet.filter (· ≠ "redirect_from_CO_HeMS"),
    ¬ (t.toList ++ ['_']) <+: t'.toList := by decide +kernel

/-- C64: before the cut, two binaries born at `ZAMS` have the same channel only if they went through the same events, redirections and contacts aside. -/
theorem C64_distinct (es es' : List String) (h : ∀ x ∈ es, x ∈ alphabet) (h' : ∀ x ∈ es', x ∈ alphabet)
    (heq : clean (join (("ZAMS" :: es).map String.toList)) = clean (join (("ZAMS" :: es').map String.toList))) :
    es.filter (· ∉ removed) = es'.filter (· ∉ removed) := by
  have hz : "ZAMS" ∈ alphabet := by simp [alphabet]
  rw [C64_cleaned _ _ hz h, C64_cleaned _ _ hz h'] at heq
  have hin : ∀ l : List String, (∀ x ∈ l, x ∈ alphabet) → ∀ t ∈ (kept ("ZAMS" :: l)).map String.toList,
      t ∈ (alphabet.filter (· ≠ "redirect_from_CO_HeMS")).map String.toList := by
    intro l hl t ht
    rw [List.mem_map] at ht
    obtain ⟨x, hx, rfl⟩ := ht
    apply List.mem_map_of_mem
    simp only [kept, List.mem_cons, List.mem_filter, decide_eq_true_eq] at hx
    rw [List.mem_filter]
    rcases hx with rfl | ⟨hx, hr⟩
    · exact ⟨hz, by decide⟩
    · refine ⟨hl x hx, ?_⟩
      simp only [decide_eq_true_eq]
      rintro rfl
      exact hr (by simp [removed])
  have key := join_injective _ (by
      intro t ht t' ht'
      rw [List.mem_map] at ht ht'
      obtain ⟨x, hx, rfl⟩ := ht
      obtain ⟨y, hy, rfl⟩ := ht'
      exact alphabet_apart x hx y hy) _ _ (hin es h) (hin es' h') (by simp [kept]) (by simp [kept]) heq
  have := List.map_injective_iff.mpr (fun a b h => String.toList_injective h) key
  simpa [kept] using this

/-- C64 fails: the cut after 100 characters merges different histories. -/
theorem C64_cut_violated : ∃ es es' : List (Option String), (∀ x ∈ es.filterMap id, x ∈ alphabet) ∧ (∀ x ∈ es'.filterMap id, x ∈ alphabet) ∧
    (es.filterMap id).filter (· ∉ removed) ≠ (es'.filterMap id).filter (· ∉ removed) ∧
    channel false true none none es = channel false true none none es' := by
  refine ⟨some "ZAMS" :: List.replicate 16 (some "oRLO1") ++ [some "CC1"], some "ZAMS" :: List.replicate 16 (some "oRLO1") ++ [some "CC2"], ?_, ?_, ?_, ?_⟩
  all_goals decide +kernel

/-- C64: the classes.  A run without class, or with one of the five classes, has a channel; any other class (such as one of a run that did not converge)
stops the calculation. -/
theorem C64_classes (mtHistory hasMt : Bool) (hm : (mtHistory && !hasMt) = false) (cls mt : Option String) (evs : List (Option String)) :
    (∃ out, channel mtHistory hasMt cls mt evs = .ok out) ↔ cls = none ∨ ∃ c, cls = some c ∧ c ∈ classDict.map Prod.fst := by
  cases cls with
  | none =>
    simp only [true_or, iff_true]
    unfold channel classOf
    simp only [hm, Bool.false_eq_true, if_false]
    by_cases h : evs.filterMap id = []
    · exact ⟨none, by rw [if_pos h]⟩
    · rw [if_neg h]; exact ⟨_, rfl⟩
  | some c =>
    have hl : (∃ v, classDict.lookup c = some v) ↔ c ∈ classDict.map Prod.fst := by
      unfold classDict
      constructor
      · rintro ⟨v, hv⟩
        by_contra hc
        have : List.lookup c [("initial_MT", "initial_MT"), ("stable_MT", "oRLO1"), ("stable_reverse_MT", "oRLO1-reverse"), ("no_MT", "None"),
            ("unstable_MT", "oCE1/oDoubleCE1")] = none := by
          rw [List.lookup_eq_none_iff]
          intro p hp
          simp only [bne_iff_ne, ne_eq]
          rintro rfl
          exact hc (List.mem_map.mpr ⟨p, hp, rfl⟩)
        rw [this] at hv; cases hv
      · intro hc
        simp only [List.map_cons, List.map_nil, List.mem_cons, List.not_mem_nil, or_false] at hc
        rcases hc with rfl | rfl | rfl | rfl | rfl <;> exact ⟨_, rfl⟩
    simp only [reduceCtorEq, false_or, Option.some.injEq, exists_eq_left', ← hl]
    unfold channel
    cases hc : classDict.lookup c with
    | none => simp [classOf, hc]
    | some v =>
      simp only [classOf, hc, hm, Bool.false_eq_true, if_false]
      by_cases h : evs.filterMap id = []
      · rw [if_pos h]; simp
      · rw [if_neg h]; simp

/-- C64: with the option but without the column the calculation is refused; without events there is no channel. -/
theorem C64_edge_cases (cls mt : Option String) (evs : List (Option String)) (mtHistory : Bool) (c : Option String) (hc : classOf cls = .ok c) :
    channel true false cls mt evs = .error .value ∧ (evs.filterMap id = [] → channel mtHistory true cls mt evs = .ok none) := by
  refine ⟨by unfold channel; rw [hc]; rfl, fun h => ?_⟩
  unfold channel
  rw [hc]
  simp only [h, Bool.not_true, Bool.and_false, Bool.false_eq_true, if_false, if_true]

/-- C64: only a stable contact phase changes the channel. -/
theorem C64_other_history (cls mt : Option String) (hm : mt ≠ some "Stable contact phase") (evs : List (Option String)) :
    channel true true cls mt evs = channel false true cls mt evs := by
  unfold channel withMt
  simp [hm]

/-- C64 fails: the contact phase of the first grid relabels every later mass transfer from star 1 as well; and an event
of the eccentric flow that the list does not know stays in the channel. -/
theorem C64_contact_violated :
    channel true true (some "stable_MT") (some "Stable contact phase") [some "ZAMS", some "CC2", some "oRLO1", some "CC1"] =
      .ok (some (chars! "ZAMS_oRLO1-contact_CC2_oRLO1-contact_CC1")) ∧
    channel false true (some "no_MT") none [some "ZAMS", some "redirect_from_HMS_HMS_RLO", some "CC1"] =
      .ok (some (chars! "ZAMS_redirect_from_HMS_HMS_RLO_CC1")) := by
  decide +kernel

/-! ### Concrete cases -/

example : channel true true (some "stable_MT") none [some "ZAMS", none, some "redirect_from_ZAMS", some "CC1", some "redirect_from_CO_HeMS_RLO", some "CO_contact", some "END"] =
    .ok (some (chars! "ZAMS_oRLO1_CC1_END")) := by decide +kernel
example : channel true true (some "not_converged") none [some "ZAMS"] = .error .key := by decide +kernel
example : kept ["ZAMS", "redirect_from_CO_HeMS", "CC1"] = ["ZAMS", "CC1"] := by decide +kernel

end Verif.Channel
