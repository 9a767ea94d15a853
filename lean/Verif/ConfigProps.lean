import Verif.Config
/-!
Property theorems for C43 (configuration files).
-/
namespace Verif.Config

/-! ### Specification -/

mutual
/-- Values JSON can express. -/
def Val.isJson : Val → Bool
  | .null | .bool _ | .num _ | .str _ => true
  | .list l => isJsonList l
  | .dict l => isJsonDict l
  | .ndarray _ => false
  | .other _ => false

def isJsonList : List Val → Bool
  | [] => true
  | v :: vs => v.isJson && isJsonList vs

def isJsonDict : List (String × Val) → Bool
  | [] => true
  | (_, v) :: vs => v.isJson && isJsonDict vs
end

mutual
theorem written_of_isJson (v : Val) (h : v.isJson = true) : v.written = v := by
  cases v with
  | null | bool | num | str => rfl
  | list l => simp only [Val.isJson] at h; simp only [Val.written, writtenList_of_isJson l h]
  | dict l => simp only [Val.isJson] at h; simp only [Val.written, writtenDict_of_isJson l h]
  | ndarray l => simp [Val.isJson] at h
  | other t => simp [Val.isJson] at h

theorem writtenList_of_isJson (l : List Val) (h : isJsonList l = true) : writtenList l = l := by
  cases l with
  | nil => rfl
  | cons v vs =>
    simp only [isJsonList, Bool.and_eq_true] at h
    simp only [writtenList, written_of_isJson v h.1, writtenList_of_isJson vs h.2]

theorem writtenDict_of_isJson (l : List (String × Val)) (h : isJsonDict l = true) : writtenDict l = l := by
  cases l with
  | nil => rfl
  | cons v vs =>
    obtain ⟨k, v⟩ := v
    simp only [isJsonDict, Bool.and_eq_true] at h
    simp only [writtenDict, written_of_isJson v h.1, writtenDict_of_isJson vs h.2]
end

/-- Everything written is JSON. -/
def IsDict (d : Dict) : Prop := (d.map Prod.fst).Nodup

/-- Would this call, in a session whose object has default path `dflt`, be allowed to overwrite file `p`? -/
def Op.mayOverwrite (dflt : Option ℕ) (p : ℕ) : Op → Prop
  | .save path overwrite => overwrite = true ∧ path.or dflt = some p
  | _ => False

/-- Calls that bring in entries from files but must not change existing ones. -/
def Op.guarded : Op → Prop
  | .save _ _ => True
  | .load _ canUpdate => canUpdate = false
  | _ => False

/-! ### C43 -/

theorem step_path (s : St) (o : Op) : (step s o).1.path = s.path := by
  cases o with
  | set | update => rfl
  | del k => simp only [step]; split <;> rfl
  | save p ow => simp only [step, save]; split <;> (try split) <;> rfl
  | load p c =>
    simp only [step, load]
    split
    · rfl
    · split <;> (try split) <;> rfl

/-- C43.  Over any session, a file that exists and for which no call permits overwriting is left as it is. -/
theorem C43_no_overwrite (s : St) (ops : List Op) (p : ℕ) (hex : (s.disk p).exists = true)
    (hops : ∀ o ∈ ops, ¬ o.mayOverwrite s.path p) : (run s ops).disk p = s.disk p := by
  induction ops generalizing s with
  | nil => rfl
  | cons o ops ih =>
    have hstep : (step s o).1.disk p = s.disk p := by
      have ho := hops o (by simp)
      cases o with
      | set | update => rfl
      | del k => simp only [step]; split <;> rfl
      | load q c =>
        simp only [step, load]
        split
        · rfl
        · split <;> (try split) <;> rfl
      | save q ow =>
        simp only [step, save]
        split
        · rfl
        · rename_i r hr
          split
          · rfl
          · rename_i hcond
            simp only [write]
            by_cases hpr : p = r
            · exfalso
              subst hpr
              rw [hex] at hcond
              exact ho ⟨by cases ow <;> simp_all, hr⟩
            · simp [hpr]
    simp only [run]
    rw [ih (step s o).1 (by rw [hstep]; exact hex)
      (by rw [step_path]; exact fun o' ho' => hops o' (by simp [ho'])), hstep]

/-- C43.  A save that is refused changes nothing and is reported. -/
theorem C43_save_refused (s : St) (path : Option ℕ) (p : ℕ) (hp : path.or s.path = some p)
    (hex : (s.disk p).exists = true) : save s path false = (s, some .permission) := by
  simp [save, hp, hex]

/-- C43.  Loading without permission to update keeps every existing entry: over any session made of saves and such loads,
entries present at the start have the same value at the end. -/
theorem C43_guarded_session (s : St) (ops : List Op) (hops : ∀ o ∈ ops, o.guarded) (k : String) (v : Val)
    (hk : s.entries.get k = some v) : (run s ops).entries.get k = some v := by
  induction ops generalizing s with
  | nil => exact hk
  | cons o ops ih =>
    simp only [run]
    apply ih _ (fun o' ho' => hops o' (by simp [ho']))
    have ho := hops o (by simp)
    cases o with
    | set | update | del => exact absurd ho (by simp [Op.guarded])
    | save q ow => simp only [step, save]; split <;> (try split) <;> exact hk
    | load q c =>
      simp only [Op.guarded] at ho
      subst ho
      simp only [step, load]
      split
      · exact hk
      · split
        · exact hk
        · exact hk
        · rename_i new _
          split
          · exact hk
          · rename_i hc
            have h0 : (common s.entries new).length = 0 := by simpa using hc
            have := (common_eq_nil _ _).1 h0 k (mem_of_lookup_some _ _ _ hk)
            simp only [get_update]
            rw [lookup_none_of_notMem new.reverse k (by simpa using this)]
            simpa using hk

/-- C43.  A load either fails and leaves the object as it was, or afterwards the entries are those of the file, completed by the
old ones; it can only succeed without permission to update if no key is in both. -/
theorem C43_load (s : St) (path : Option ℕ) (c : Bool) (p : ℕ) (new : Dict) (hp : path.or s.path = some p)
    (hf : s.disk p = .json new) (hd : IsDict new) :
    (c = false ∧ (∃ k, s.entries.get k ≠ none ∧ new.get k ≠ none) ∧ load s path c = (s, some .permission)) ∨
    ((c = true ∨ ∀ k, s.entries.get k = none ∨ new.get k = none) ∧ (load s path c).2 = none ∧
      (load s path c).1.disk = s.disk ∧
      ∀ k, (load s path c).1.entries.get k = (new.get k).or (s.entries.get k)) := by
  have hmem : ∀ (d : Dict) (k : String), d.get k ≠ none ↔ k ∈ d.map Prod.fst := by
    intro d k
    constructor
    · intro h
      obtain ⟨v, hv⟩ := Option.ne_none_iff_exists'.1 h
      exact mem_of_lookup_some d k v hv
    · intro h hn
      unfold Dict.get at hn
      induction d with
      | nil => simp at h
      | cons a d ih =>
        simp only [List.map_cons, List.mem_cons] at h
        by_cases hka : k = a.1
        · simp [List.lookup, hka] at hn
        · have hb : (k == a.1) = false := by simpa using hka
          simp only [List.lookup, hb] at hn
          exact ih (h.resolve_left hka) hn
  have hget : ∀ k, (s.entries.update new).get k = (new.get k).or (s.entries.get k) := by
    intro k
    rw [get_update, lookup_reverse new hd]; rfl
  by_cases hc : c = true
  · right
    refine ⟨Or.inl hc, ?_⟩
    subst hc
    simp only [load, hp, hf]
    exact ⟨rfl, rfl, hget⟩
  · have hc' : c = false := by simpa using hc
    subst hc'
    by_cases h0 : (common s.entries new).length = 0
    · right
      refine ⟨Or.inr fun k => ?_, ?_⟩
      · by_cases hk : s.entries.get k = none
        · exact Or.inl hk
        · right
          by_contra hn
          exact (common_eq_nil _ _).1 h0 k ((hmem _ _).1 hk) ((hmem _ _).1 hn)
      · simp only [load, hp, hf]
        simp only [h0, Bool.not_false, ne_eq, not_true_eq_false, decide_false, Bool.and_false, Bool.false_eq_true,
          if_false]
        exact ⟨trivial, trivial, hget⟩
    · left
      refine ⟨rfl, ?_, ?_⟩
      · have := (common_eq_nil s.entries new).not.1 h0
        simp only [not_forall, not_not] at this
        obtain ⟨k, h1, h2⟩ := this
        exact ⟨k, (hmem _ _).2 h1, (hmem _ _).2 h2⟩
      · simp [load, hp, hf, h0]

/-- C43.  Saving and reading the file back with a new object restores every entry, if the entries are JSON values; arrays come
back as lists of the same numbers. -/
theorem C43_roundtrip (s : St) (p : ℕ) (ow : Bool) (hd : IsDict s.entries)
    (hok : (save s (some p) ow).2 = none) (k : String) :
    let back := init (save s (some p) ow).1.disk (some p)
    back.2 = none ∧ back.1.entries.get k = (s.entries.get k).map Val.written ∧
      ∀ v, s.entries.get k = some v → v.isJson = true → back.1.entries.get k = some v := by
  have hsave : save s (some p) ow = ({ s with disk := write s.disk p (.json (writtenDict s.entries)) }, none) := by
    simp only [save, Option.some_or] at hok ⊢
    split at hok
    · simp at hok
    · rename_i h; simp only [if_neg h]
  have hinit : init (save s (some p) ow).1.disk (some p) =
      (⟨write s.disk p (.json (writtenDict s.entries)), Dict.update [] (writtenDict s.entries), some p⟩, none) := by
    simp [hsave, init, write, File.exists, load, common]
  intro back
  have hb : back = _ := hinit
  have hg : back.1.entries.get k = (s.entries.get k).map Val.written := by
    rw [hb]
    change (Dict.update [] (writtenDict s.entries)).get k = _
    rw [get_update, lookup_reverse _ (by rw [writtenDict_keys]; exact hd), writtenDict_lookup]
    simp [Dict.get]
  refine ⟨by rw [hb], hg, fun v hv hj => ?_⟩
  rw [hg, hv, Option.map_some, written_of_isJson v hj]

/-- C43 fails for other values: an entry holding, say, a numpy integer is silently saved as `null` and read back as `None`. -/
theorem C43_unknown_type_violated :
    ∃ (s : St) (p : ℕ) (k : String) (v : Val), s.entries.get k = some v ∧ v ≠ .null ∧ (save s (some p) true).2 = none ∧
      (init (save s (some p) true).1.disk (some p)).1.entries.get k = some .null :=
  ⟨⟨fun _ => .absent, [("n", .other 3)], none⟩, 0, "n", .other 3, rfl, by simp, rfl, rfl⟩

/-- C43.  An array of JSON values is saved as the list of its elements. -/
theorem C43_array_saved_as_list (s : St) (p : ℕ) (ow : Bool) (hd : IsDict s.entries) (hok : (save s (some p) ow).2 = none)
    (k : String) (l : List Val) (hk : s.entries.get k = some (.ndarray l)) (hl : (Val.list l).isJson = true) :
    (init (save s (some p) ow).1.disk (some p)).1.entries.get k = some (.list l) := by
  have h := (C43_roundtrip s p ow hd hok k).2.1
  rw [h, hk]
  have := written_of_isJson (.list l) hl
  simp only [Val.written] at this
  simp only [Option.map_some, Val.written, this]

/-! Concrete cases. -/

example : (run ⟨fun q => if q = 1 then .json [("a", .num 1)] else .absent, [("b", .num 2)], some 0⟩
    [.load (some 1) false, .save none true, .save (some 1) false, .load (some 1) false]).entries.get "a"
    = some (.num 1) := rfl

example : IsDict [("a", .num 1), ("b", .list [.str "x", .null])] ∧
    (Val.list [.str "x", .null]).isJson = true := ⟨by simp [IsDict], rfl⟩

example : ∃ s : St, (load s none false).2 = some .permission :=
  ⟨⟨fun _ => .json [("a", .num 1)], [("a", .num 2)], some 0⟩, rfl⟩

/-- C43.  A file that does not exist is written without permission to overwrite. -/
theorem C43_save_new (s : St) (path : Option ℕ) (p : ℕ) (ow : Bool) (hp : path.or s.path = some p) (hab : s.disk p = .absent) :
    (save s path ow).2 = none ∧ (save s path ow).1.disk p = .json (writtenDict s.entries) ∧
      init s.disk (some p) = (⟨s.disk, [], some p⟩, none) := by
  simp [save, hp, hab, File.exists, write, init]

/-- C43.  Deleting an entry removes this one and no other; deleting one that is not there changes nothing and is reported. -/
theorem C43_delete (s : St) (k : String) :
    (s.entries.get k = none → step s (.del k) = (s, some .key)) ∧
    (s.entries.get k ≠ none → (step s (.del k)).2 = none ∧ (step s (.del k)).1.disk = s.disk ∧
      ∀ k', (step s (.del k)).1.entries.get k' = if k' = k then none else s.entries.get k') := by
  have key : ∀ d : Dict, ∀ k', (d.del k).get k' = if k' = k then none else d.get k' := by
    intro d k'
    induction d with
    | nil => simp [Dict.del, Dict.get]
    | cons a d ih =>
      obtain ⟨a, w⟩ := a
      unfold Dict.get Dict.del at *
      by_cases ha : a = k
      · subst ha
        rw [List.filter_cons_of_neg (by simp), ih]
        by_cases hk : k' = a
        · rw [if_pos hk, if_pos hk]
        · have hb : (k' == a) = false := by simpa using hk
          rw [if_neg hk, if_neg hk, List.lookup, hb]
      · rw [List.filter_cons_of_pos (by simpa using ha)]
        by_cases hk : k' = a
        · subst hk
          rw [if_neg ha]
          simp [List.lookup]
        · have hb : (k' == a) = false := by simpa using hk
          rw [List.lookup, List.lookup, hb]
          exact ih
  constructor
  · intro h
    simp [step, h]
  · intro h
    have : (s.entries.get k).isSome = true := by
      cases hg : s.entries.get k with
      | none => exact absurd hg h
      | some v => rfl
    simp only [step, this, if_true]
    exact ⟨trivial, trivial, key s.entries⟩

end Verif.Config
