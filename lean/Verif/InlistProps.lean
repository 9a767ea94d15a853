import Verif.Inlist

/-!
# Properties of the inlists of a grid (C103)
-/

namespace Verif.Inlist
open Verif.Jobs (cutAt isSpace strip dec)

/-! ## Dictionaries -/

theorem get_set {V : Type} (k p : Text) (v : V) (d : Dict V) : get p (set k v d) = if p = k then some v else get p d := by
  induction d with
  | nil => by_cases h : p = k
           · simp [set, get, h]
           · simp [set, get, h, Ne.symm h]
  | cons e d ih =>
    by_cases he : e.1 = k
    · by_cases h : p = k
      · simp [set, get, he, h]
      · simp [set, get, he, h, Ne.symm h]
    · by_cases h : e.1 = p
      · subst h; simp [set, get, he]
      · simp [set, get, he, h, ih]

theorem get_none {V : Type} {p : Text} {d : Dict V} (h : p ∉ d.map (·.1)) : get p d = none := by
  induction d with
  | nil => rfl
  | cons e d ih =>
    simp only [List.map_cons, List.mem_cons, not_or] at h
    simp [get, Ne.symm h.1, ih h.2]

theorem keys_set {V : Type} (k p : Text) (v : V) (d : Dict V) : p ∈ (set k v d).map (·.1) ↔ p = k ∨ p ∈ d.map (·.1) := by
  induction d with
  | nil => simp [set]
  | cons e d ih =>
    by_cases he : e.1 = k
    · simp [set, he]
    · simp only [set, if_neg he, List.map_cons, List.mem_cons, ih]; tauto

theorem nodup_set {V : Type} (k : Text) (v : V) (d : Dict V) (h : (d.map (·.1)).Nodup) : ((set k v d).map (·.1)).Nodup := by
  induction d with
  | nil => simp [set]
  | cons e d ih =>
    simp only [List.map_cons, List.nodup_cons] at h
    by_cases he : e.1 = k
    · rw [set, if_pos he, List.map_cons, List.nodup_cons]; exact ⟨he ▸ h.1, h.2⟩
    · simp only [set, if_neg he, List.map_cons, List.nodup_cons]
      refine ⟨fun hm => ?_, ih h.2⟩
      rcases (keys_set k e.1 v d).mp hm with h1 | h1
      · exact he h1
      · exact h.1 h1

theorem mem_set {V : Type} {k : Text} {v : V} {d : Dict V} {e : Text × V} (h : e ∈ set k v d) : e = (k, v) ∨ e ∈ d := by
  induction d with
  | nil => simpa [set] using h
  | cons x d ih =>
    by_cases he : x.1 = k
    · simp only [set, if_pos he, List.mem_cons] at h
      rcases h with h | h
      · exact .inl h
      · exact .inr (List.mem_cons_of_mem _ h)
    · simp only [set, if_neg he, List.mem_cons] at h
      rcases h with h | h
      · exact .inr (h ▸ List.mem_cons_self)
      · rcases ih h with h | h
        · exact .inl h
        · exact .inr (List.mem_cons_of_mem _ h)

/-- The dictionary made by assigning in order. -/
def fill (d : Dict Text) (l : List (Text × Text)) : Dict Text := l.foldl (fun d e => set e.1 e.2 d) d

theorem last_cons (p : Text) (x : Text × Text) (l : List (Text × Text)) :
    last p (x :: l) = (last p l).or (if x.1 = p then some x.2 else none) := by
  unfold last
  by_cases h : x.1 = p
  · simp only [h, decide_true, List.filter_cons_of_pos, if_true]
    cases hl : (l.filter fun e => decide (e.1 = p)) with
    | nil => simp
    | cons y ys => simp [List.getLast?_eq_getLast_of_ne_nil]
  · simp [h]

theorem get_fill (p : Text) (l : List (Text × Text)) (d : Dict Text) : get p (fill d l) = (last p l).or (get p d) := by
  induction l generalizing d with
  | nil => simp [fill, last]
  | cons x l ih =>
    have := ih (set x.1 x.2 d)
    rw [show fill d (x :: l) = fill (set x.1 x.2 d) l from rfl, this, get_set, last_cons]
    by_cases h : x.1 = p
    · subst h; cases last x.1 l <;> simp
    · cases last p l <;> simp [h, Ne.symm h]

theorem nodup_fill (l : List (Text × Text)) (d : Dict Text) (h : (d.map (·.1)).Nodup) : ((fill d l).map (·.1)).Nodup := by
  induction l generalizing d with
  | nil => exact h
  | cons x l ih => exact ih _ (nodup_set _ _ _ h)

theorem mem_fill {l : List (Text × Text)} {d : Dict Text} {e : Text × Text} (h : e ∈ fill d l) : e ∈ d ∨ e ∈ l := by
  induction l generalizing d with
  | nil => exact .inl h
  | cons x l ih =>
    rcases ih (d := set x.1 x.2 d) h with h | h
    · rcases mem_set h with h | h
      · exact .inr (h ▸ List.mem_cons_self)
      · exact .inl h
    · exact .inr (List.mem_cons_of_mem _ h)

/-! ## White space -/

def L (s : Text) : Text := s.dropWhile isSpace
def R (s : Text) : Text := (s.reverse.dropWhile isSpace).reverse

theorem strip_eq (s : Text) : strip s = R (L s) := rfl

theorem L_sep {c : Char} (hc : isSpace c = false) (a b : Text) : L (a ++ c :: b) = L a ++ c :: b := by
  induction a with
  | nil => simp [L, hc]
  | cons x a ih =>
    by_cases hx : isSpace x = true
    · simpa [L, hx] using ih
    · simp [L, hx]

theorem R_sep {c : Char} (hc : isSpace c = false) (a b : Text) : R (a ++ c :: b) = a ++ c :: R b := by
  have h := L_sep hc b.reverse a.reverse
  unfold L at h
  unfold R
  rw [show (a ++ c :: b).reverse = b.reverse ++ c :: a.reverse by simp, h]
  simp

theorem strip_sep {c : Char} (hc : isSpace c = false) (a b : Text) : strip (a ++ c :: b) = L a ++ c :: R b := by
  rw [strip_eq, L_sep hc, R_sep hc]

theorem L_space {s : Text} (h : ∀ c ∈ s, isSpace c = true) : L s = [] := by
  induction s with
  | nil => rfl
  | cons x s ih => simpa [L, h x List.mem_cons_self] using ih fun c hc => h c (List.mem_cons_of_mem _ hc)

theorem R_space {s : Text} (h : ∀ c ∈ s, isSpace c = true) : R s = [] := by
  have := L_space (s := s.reverse) (by simpa using h)
  unfold L at this
  unfold R; rw [this]; rfl

theorem space_or (s : Text) : (∀ c ∈ s, isSpace c = true) ∨ ∃ a c b, isSpace c = false ∧ s = a ++ c :: b := by
  by_cases h : ∀ c ∈ s, isSpace c = true
  · exact .inl h
  · push Not at h
    obtain ⟨c, hc, hs⟩ := h
    obtain ⟨a, b, rfl⟩ := List.append_of_mem hc
    exact .inr ⟨a, c, b, by simpa using hs, rfl⟩

theorem LL (s : Text) : L (L s) = L s := by
  rcases space_or s with h | ⟨a, c, b, hc, rfl⟩
  · rw [L_space h]; rfl
  · induction a with
    | nil => simp [L, hc]
    | cons x a ih =>
      by_cases hx : isSpace x = true
      · simpa [L, hx] using ih
      · simp [L, hx]

theorem RR (s : Text) : R (R s) = R s := by
  have := LL s.reverse
  unfold L at this
  unfold R
  rw [List.reverse_reverse, this]

theorem LR (s : Text) : L (R s) = R (L s) := by
  rcases space_or s with h | ⟨a, c, b, hc, rfl⟩
  · rw [L_space h, R_space h]; rfl
  · rw [R_sep hc, L_sep hc, L_sep hc, R_sep hc]

theorem strip_L (s : Text) : strip (L s) = strip s := by rw [strip_eq, LL]; rfl
theorem strip_R (s : Text) : strip (R s) = strip s := by rw [strip_eq, LR, RR, strip_eq]
theorem strip_strip (s : Text) : strip (strip s) = strip s := (strip_R (L s)).trans (strip_L s)

theorem L_sub (s : Text) : ∀ c ∈ L s, c ∈ s := fun _ h => (List.dropWhile_sublist _).subset h
theorem R_sub (s : Text) : ∀ c ∈ R s, c ∈ s := fun c h => by
  have := (List.dropWhile_sublist (p := isSpace) (l := s.reverse)).subset (List.mem_reverse.mp h)
  exact List.mem_reverse.mp this
theorem strip_sub (s : Text) : ∀ c ∈ strip s, c ∈ s := fun c h => L_sub s c (R_sub _ c h)

theorem mem_strip {c : Char} (hc : isSpace c = false) (s : Text) : c ∈ strip s ↔ c ∈ s := by
  refine ⟨strip_sub s c, fun h => ?_⟩
  obtain ⟨a, b, rfl⟩ := List.append_of_mem h
  rw [strip_sep hc]; simp

theorem strip_pad {a b s : Text} (ha : ∀ c ∈ a, isSpace c = true) (hb : ∀ c ∈ b, isSpace c = true) : strip (a ++ s ++ b) = strip s := by
  have h1 : ∀ t, L (a ++ t) = L t := by
    intro t
    induction a with
    | nil => rfl
    | cons x a ih =>
      have hx := ha x List.mem_cons_self
      simpa [L, hx] using ih fun c hc => ha c (List.mem_cons_of_mem _ hc)
  have h2 : ∀ t, R (t ++ b) = R t := by
    intro t
    unfold R
    rw [List.reverse_append]
    congr 1
    have : ∀ u, (∀ c ∈ u, isSpace c = true) → (u ++ t.reverse).dropWhile isSpace = t.reverse.dropWhile isSpace := by
      intro u hu
      induction u with
      | nil => rfl
      | cons x u ih => simpa [hu x List.mem_cons_self] using ih fun c hc => hu c (List.mem_cons_of_mem _ hc)
    exact this _ (by simpa using hb)
  rw [← strip_R, h2, strip_R, ← strip_L (a ++ s), h1, strip_L]

/-! ## One line -/

theorem sp_bang : isSpace '!' = false := by decide
theorem sp_eq : isSpace '=' = false := by decide
theorem sp_amp : isSpace '&' = false := by decide

theorem Item.Ok.bang {i : Item} (h : i.Ok) : '!' ∉ i.body := by
  cases i with
  | head s => exact h.2
  | put a b => simp only [Item.body, List.mem_append, List.mem_cons, not_or]; exact ⟨h.2.1, by decide, h.2.2.2.1⟩
  | other s => exact h.2.2

theorem clean_text {l : Line} (h : l.item.Ok) : clean l.text = strip l.item.body := by
  have hb := h.bang
  unfold clean Line.text
  cases l.note with
  | none =>
    dsimp only
    rw [Verif.Jobs.cutAt_none '!' _ (fun hm => hb (strip_sub _ _ hm))]
    exact strip_strip _
  | some c =>
    dsimp only
    rw [strip_sep sp_bang, Verif.Jobs.cutAt_append '!' _ _ (fun hm => hb (L_sub _ _ hm))]
    exact strip_L _

theorem takeWhile_sep (a b : Text) (h : '=' ∉ a) : (a ++ '=' :: b).takeWhile (· ≠ '=') = a := by
  induction a with
  | nil => simp
  | cons x a ih =>
    simp only [List.mem_cons, not_or] at h
    rw [List.cons_append, List.takeWhile_cons_of_pos (by simpa using Ne.symm h.1), ih h.2]

theorem dropWhile_sep (a b : Text) (h : '=' ∉ a) : (a ++ '=' :: b).dropWhile (· ≠ '=') = '=' :: b := by
  induction a with
  | nil => simp
  | cons x a ih =>
    simp only [List.mem_cons, not_or] at h
    rw [List.cons_append, List.dropWhile_cons_of_pos (by simpa using Ne.symm h.1), ih h.2]

theorem name_put {a b : Text} (h : '=' ∉ a) : name (strip (a ++ '=' :: b)) = strip a := by
  rw [strip_sep sp_eq]
  unfold name
  rw [takeWhile_sep _ _ (fun hm => h (L_sub _ _ hm)), strip_L]

theorem val_put {a b : Text} (h : '=' ∉ a) : val (strip (a ++ '=' :: b)) = strip b := by
  rw [strip_sep sp_eq]
  unfold val
  rw [dropWhile_sep _ _ (fun hm => h (L_sub _ _ hm))]
  exact strip_R _

/-- What the line is after cleaning, if it is kept. -/
def core : Item → Option Text
  | .head s => some (strip s)
  | .put a b => some (strip (a ++ '=' :: b))
  | .other _ => none

theorem keep_iff {s : Text} : keep s = true ↔ '=' ∈ s ∨ '&' ∈ s := by
  unfold keep
  simp only [Bool.and_eq_true, decide_eq_true_eq, Bool.or_eq_true]
  refine ⟨fun h => h.2, fun h => ⟨?_, h⟩⟩
  rintro rfl; simp at h

theorem kept {l : List Line} (h : ∀ x ∈ l, x.item.Ok) : ((l.map Line.text).map clean).filter keep = (l.map (·.item)).filterMap core := by
  induction l with
  | nil => rfl
  | cons x l ih =>
    have hx := h x List.mem_cons_self
    have ih := ih fun y hy => h y (List.mem_cons_of_mem _ hy)
    simp only [List.map_cons, List.filter_cons, clean_text hx, ih]
    cases hi : x.item with
    | head s =>
      rw [hi] at hx
      have : keep (strip s) = true := keep_iff.mpr (.inr ((mem_strip sp_amp s).mpr hx.1))
      simp [core, Item.body, this]
    | put a b =>
      have : keep (strip (a ++ '=' :: b)) = true := keep_iff.mpr (.inl ((mem_strip sp_eq _).mpr (by simp)))
      simp [core, Item.body, this]
    | other s =>
      rw [hi] at hx
      have : ¬ keep (strip s) = true := fun hk => by
        rcases keep_iff.mp hk with hk | hk
        · exact hx.1 (strip_sub _ _ hk)
        · exact hx.2.1 (strip_sub _ _ hk)
      exact if_neg this

theorem put_no_amp {a b : Text} (h : (Item.put a b).Ok) : '&' ∉ strip (a ++ '=' :: b) := fun hm => by
  have := strip_sub _ _ hm
  simp only [List.mem_append, List.mem_cons] at this
  rcases this with h1 | h1 | h1
  · exact h.2.2.1 h1
  · exact absurd h1 (by decide)
  · exact h.2.2.2.2 h1

/-- Every line of text is one of the specified ones. -/
theorem exists_line (s : Text) : ∃ l : Line, l.item.Ok ∧ l.text = s := by
  have hb : ∀ t : Text, '!' ∉ t → ∃ i : Item, i.Ok ∧ i.body = t := by
    intro t ht
    by_cases h1 : '&' ∈ t
    · exact ⟨.head t, ⟨h1, ht⟩, rfl⟩
    · by_cases h2 : '=' ∈ t
      · obtain ⟨a, b, rfl, ha⟩ := List.eq_append_cons_of_mem h2
        simp only [List.mem_append, List.mem_cons, not_or] at h1 ht
        exact ⟨.put a b, ⟨ha, ht.1, h1.1, ht.2.2, h1.2.2⟩, rfl⟩
      · exact ⟨.other t, ⟨h2, h1, ht⟩, rfl⟩
  by_cases h : '!' ∈ s
  · obtain ⟨a, b, rfl, ha⟩ := List.eq_append_cons_of_mem h
    obtain ⟨i, hi, rfl⟩ := hb a ha
    exact ⟨⟨i, some b⟩, hi, rfl⟩
  · obtain ⟨i, hi, rfl⟩ := hb s h
    exact ⟨⟨i, none⟩, hi, rfl⟩

theorem exists_lines (l : List Text) : ∃ ls : List Line, (∀ x ∈ ls, x.item.Ok) ∧ ls.map Line.text = l := by
  induction l with
  | nil => exact ⟨[], by simp, rfl⟩
  | cons s l ih =>
    obtain ⟨x, hx, hs⟩ := exists_line s
    obtain ⟨ls, h1, h2⟩ := ih
    exact ⟨x :: ls, by simpa using ⟨hx, h1⟩, by simp [hs, h2]⟩

/-! ## One file -/

theorem no_sections {items : List Item} (hok : ∀ i ∈ items, i.Ok) (h : items.any Item.isHead = false) :
    sections (items.filterMap core) = [] := by
  have : (items.filterMap core).filter (fun s => decide ('&' ∈ s)) = [] := by
    rw [List.filter_eq_nil_iff]
    intro s hs
    obtain ⟨i, hi, hc⟩ := List.mem_filterMap.mp hs
    have hh := List.any_eq_false.mp h i hi
    have ho := hok i hi
    cases i with
    | head s => simp [Item.isHead] at hh
    | put a b => simp only [core, Option.some.injEq] at hc; subst hc; simpa using put_no_amp ho
    | other s => simp [core] at hc
  unfold sections; rw [this]; rfl

theorem fold_assign {items : List Item} (hok : ∀ i ∈ items, i.Ok) (h : items.any Item.isHead = false) (d : Dict Text) :
    (items.filterMap core).foldl assign d = fill d (full (assignments items)) := by
  induction items generalizing d with
  | nil => rfl
  | cons i items ih =>
    simp only [List.any_cons, Bool.or_eq_false_iff] at h
    have ih := fun d => ih (fun j hj => hok j (List.mem_cons_of_mem _ hj)) h.2 d
    have ho := hok i List.mem_cons_self
    cases i with
    | head s => exact absurd h.1 (by simp [Item.isHead])
    | put a b =>
      have e1 : (Item.put a b :: items).filterMap core = strip (a ++ '=' :: b) :: items.filterMap core := rfl
      have e2 : assignments (Item.put a b :: items) = (strip a, strip b) :: assignments items := by simp [assignments]
      rw [e1, e2, List.foldl_cons, ih]
      unfold assign
      rw [val_put ho.1, name_put ho.1]
      by_cases hv : blank (strip b) = true
      · simp [full, hv]
      · simp [full, hv, fill]
    | other s =>
      have e1 : (Item.other s :: items).filterMap core = items.filterMap core := rfl
      have e2 : assignments (Item.other s :: items) = assignments items := by simp [assignments]
      rw [e1, e2, ih]

theorem get_sections (sec : Text) (ls : List Text) : get sec (sections ls) = if sec ∈ ls ∧ '&' ∈ sec then some [] else none := by
  have key : ∀ (l : List Text) (d : Dict (Dict Text)), get sec (l.foldl (fun d s => set s [] d) d) = if sec ∈ l then some [] else get sec d := by
    intro l
    induction l with
    | nil => intro d; simp
    | cons s l ih =>
      intro d
      rw [List.foldl_cons, ih, get_set]
      by_cases h : sec ∈ l
      · simp [h]
      · by_cases h2 : sec = s <;> simp [h, h2]
  unfold sections
  rw [key]
  simp [get]

theorem sections_ne {ls : List Text} {s : Text} (h : s ∈ ls) (ha : '&' ∈ s) : sections ls ≠ [] := fun he => by
  have := get_sections s ls
  rw [he, if_pos ⟨h, ha⟩] at this
  simp [get] at this

/-- The section of a line is known where it is needed. -/
def Led (cur : Option Text) (items : List Item) : Prop :=
  cur.isSome = true ∨ ∀ pre a b post, items = pre ++ .put a b :: post → blank (strip b) = false → pre.any Item.isHead = true

theorem walk_cons (cur : Option Text) (d : Dict (Dict Text)) (s : Text) (l : List Text) :
    walk cur d (s :: l) = if '&' ∈ s then walk (some s) d l else if blank (val s) = true then walk cur d l
      else match cur with
        | none => .error .unbound
        | some c => walk (some c) (set c (set (name s) (val s) ((get c d).getD [])) d) l := by
  rw [walk.eq_def]
  cases cur <;> rfl

theorem walk_ok (sec : Text) {items : List Item} (hok : ∀ i ∈ items, i.Ok) (cur : Option Text) (d : Dict (Dict Text))
    (hl : Led cur items) :
    ∃ d', walk cur d (items.filterMap core) = .ok d' ∧
      (∀ x, get sec d = some x → get sec d' = some (fill x (full (inSection sec cur items)))) ∧
      (get sec d = none → full (inSection sec cur items) = [] → get sec d' = none) := by
  induction items generalizing cur d with
  | nil => exact ⟨d, by cases cur <;> rfl, fun x hx => by simpa [inSection, full, fill] using hx, fun h _ => h⟩
  | cons i items ih =>
    have hok' := fun j hj => hok j (List.mem_cons_of_mem i hj)
    have ho := hok i List.mem_cons_self
    cases i with
    | head s =>
      have e1 : (Item.head s :: items).filterMap core = strip s :: items.filterMap core := rfl
      obtain ⟨d', h1, h2, h3⟩ := ih hok' (some (strip s)) d (.inl rfl)
      refine ⟨d', ?_, h2, h3⟩
      rw [e1, walk_cons, if_pos ((mem_strip sp_amp s).mpr ho.1), h1]
    | put a b =>
      have e1 : (Item.put a b :: items).filterMap core = strip (a ++ '=' :: b) :: items.filterMap core := rfl
      have hl' : Led cur items ∨ (cur = none ∧ blank (strip b) = false) := by
        by_cases hv : blank (strip b) = true
        · left
          rcases hl with hl | hl
          · exact .inl hl
          · refine .inr fun pre a' b' post he hb' => ?_
            have := hl (.put a b :: pre) a' b' post (by rw [he]; rfl) hb'
            simpa [Item.isHead] using this
        · cases cur with
          | none => exact .inr ⟨rfl, by simpa using hv⟩
          | some c => exact .inl (.inl rfl)
      by_cases hv : blank (strip b) = true
      · rcases hl' with hl' | ⟨_, hx⟩
        · obtain ⟨d', h1, h2, h3⟩ := ih hok' cur d hl'
          have e2 : full (inSection sec cur (.put a b :: items)) = full (inSection sec cur items) := by
            by_cases hc : cur = some sec
            · simp [inSection, hc, full, hv]
            · simp [inSection, hc]
          refine ⟨d', ?_, by rw [e2]; exact h2, by rw [e2]; exact h3⟩
          rw [e1, walk_cons, if_neg (put_no_amp ho), val_put ho.1, if_pos hv, h1]
        · rw [hv] at hx; exact absurd hx (by decide)
      · cases cur with
        | none =>
          rcases hl with hl | hl
          · simp at hl
          · have := hl [] a b items rfl (by simpa using hv)
            simp at this
        | some c =>
          obtain ⟨d', h1, h2, h3⟩ := ih hok' (some c) (set c (set (strip a) (strip b) ((get c d).getD [])) d) (.inl rfl)
          refine ⟨d', ?_, ?_, ?_⟩
          · rw [e1, walk_cons, if_neg (put_no_amp ho), val_put ho.1, if_neg hv, name_put ho.1]
            exact h1
          · intro x hx
            rw [get_set] at h2
            by_cases hc : c = sec
            · subst hc
              rw [if_pos rfl, hx] at h2
              have := h2 _ rfl
              simpa [inSection, full, hv, fill] using this
            · rw [if_neg (Ne.symm hc)] at h2
              have := h2 x hx
              simpa [inSection, hc] using this
          · intro hx he
            by_cases hc : c = sec
            · subst hc; simp [inSection, full, hv] at he
            · rw [get_set, if_neg (Ne.symm hc)] at h3
              exact h3 hx (by simpa [inSection, hc] using he)
    | other s =>
      have e1 : (Item.other s :: items).filterMap core = items.filterMap core := rfl
      have hl' : Led cur items := by
        rcases hl with hl | hl
        · exact .inl hl
        · refine .inr fun pre a' b' post he hb' => ?_
          have := hl (.other s :: pre) a' b' post (by rw [he]; rfl) hb'
          simpa [Item.isHead] using this
      obtain ⟨d', h1, h2, h3⟩ := ih hok' cur d hl'
      exact ⟨d', by rw [e1, h1], h2, h3⟩

theorem head_mem {items : List Item} {s : Text} (h : Item.head s ∈ items) : strip s ∈ items.filterMap core :=
  List.mem_filterMap.mpr ⟨.head s, h, rfl⟩

theorem items_ok {l : List Line} (h : ∀ x ∈ l, x.item.Ok) : ∀ i ∈ l.map (·.item), i.Ok := by
  intro i hi
  obtain ⟨x, hx, rfl⟩ := List.mem_map.mp hi
  exact h x hx

/-- **C103.** Reading a section of a file gives, for each parameter, the last value the file assigns to it there. -/
theorem C103_read_all (sec : Text) {l : List Line} (hok : ∀ x ∈ l, x.item.Ok) (hu : Usable sec (l.map (·.item))) :
    readSection sec (l.map Line.text) = .ok (fill [] (full (told sec (l.map (·.item))))) := by
  have hi := items_ok hok
  unfold readSection cleanFile
  dsimp only
  rw [kept hok]
  by_cases hh : (l.map (·.item)).any Item.isHead = true
  · rcases hu with hu | ⟨⟨s, hs, rfl⟩, hu⟩
    · rw [hh] at hu; simp at hu
    have hm := head_mem hs
    have ha : '&' ∈ strip s := (mem_strip sp_amp s).mpr (hi _ hs).1
    rw [if_neg (sections_ne hm ha)]
    obtain ⟨d', h1, h2, -⟩ := walk_ok (strip s) hi none (sections ((l.map (·.item)).filterMap core)) (.inr hu)
    have h2 := h2 [] (by rw [get_sections, if_pos ⟨hm, ha⟩])
    rw [h1]
    dsimp only
    rw [h2]
    simp only [told, if_pos hh]
  · have hh' : (l.map (·.item)).any Item.isHead = false := by simpa using hh
    rw [if_pos (no_sections hi hh'), fold_assign hi hh']
    simp only [get, if_true, told, if_neg hh]

theorem C103_read (sec p : Text) {l : List Line} (hok : ∀ x ∈ l, x.item.Ok) (hu : Usable sec (l.map (·.item))) :
    ∃ d, readSection sec (l.map Line.text) = .ok d ∧ get p d = last p (full (told sec (l.map (·.item)))) := by
  refine ⟨_, C103_read_all sec hok hu, ?_⟩
  rw [get_fill]
  cases last p (full (told sec (l.map (·.item)))) <;> rfl

theorem walk_unbound {items : List Item} (hok : ∀ i ∈ items, i.Ok) (d : Dict (Dict Text)) (h : ¬ Led none items) :
    walk none d (items.filterMap core) = .error .unbound := by
  induction items generalizing d with
  | nil => exact absurd (.inr fun pre a b post he => by simp at he) h
  | cons i items ih =>
    have hok' := fun j hj => hok j (List.mem_cons_of_mem i hj)
    have ho := hok i List.mem_cons_self
    cases i with
    | head s =>
      refine absurd (.inr fun pre a b post he hb => ?_) h
      cases pre with
      | nil => simp at he
      | cons x pre => simp only [List.cons_append, List.cons.injEq] at he; simp [← he.1, Item.isHead]
    | put a b =>
      have e1 : (Item.put a b :: items).filterMap core = strip (a ++ '=' :: b) :: items.filterMap core := rfl
      rw [e1, walk_cons, if_neg (put_no_amp ho), val_put ho.1]
      by_cases hv : blank (strip b) = true
      · rw [if_pos hv]
        refine ih hok' d fun hl => h ?_
        rcases hl with hl | hl
        · simp at hl
        · refine .inr fun pre a' b' post he hb' => ?_
          cases pre with
          | nil => simp only [List.nil_append, List.cons.injEq, Item.put.injEq] at he; rw [he.1.2] at hv; simp [hv] at hb'
          | cons x pre =>
            simp only [List.cons_append, List.cons.injEq] at he
            simp [hl pre a' b' post he.2 hb']
      · rw [if_neg hv]
    | other s =>
      have e1 : (Item.other s :: items).filterMap core = items.filterMap core := rfl
      rw [e1]
      refine ih hok' d fun hl => h ?_
      rcases hl with hl | hl
      · simp at hl
      · refine .inr fun pre a' b' post he hb' => ?_
        cases pre with
        | nil => simp at he
        | cons x pre =>
          simp only [List.cons_append, List.cons.injEq] at he
          simp [hl pre a' b' post he.2 hb']

theorem inSection_none {sec : Text} {items : List Item} {cur : Option Text} (hc : cur ≠ some sec)
    (h : ∀ s, .head s ∈ items → strip s ≠ sec) : inSection sec cur items = [] := by
  induction items generalizing cur with
  | nil => rfl
  | cons i items ih =>
    have h' := fun s hs => h s (List.mem_cons_of_mem i hs)
    cases i with
    | head s => simp only [inSection]; exact ih (by simpa using h s List.mem_cons_self) h'
    | put a b => simp only [inSection, if_neg hc]; exact ih hc h'
    | other s => simp only [inSection]; exact ih hc h'

theorem core_amp {items : List Item} (hok : ∀ i ∈ items, i.Ok) {t : Text} (ht : t ∈ items.filterMap core) (ha : '&' ∈ t) :
    ∃ s, .head s ∈ items ∧ strip s = t := by
  obtain ⟨i, hi, hc⟩ := List.mem_filterMap.mp ht
  cases i with
  | head s => exact ⟨s, hi, by simpa [core] using hc⟩
  | put a b => simp only [core, Option.some.injEq] at hc; subst hc; exact absurd ha (put_no_amp (hok _ hi))
  | other s => simp [core] at hc

/-- **C103.** In all other cases the set-up stops: a file which has sections, but not the one needed, or which starts
with an assignment outside of the sections, is refused. -/
theorem C103_refused (sec : Text) {l : List Line} (hok : ∀ x ∈ l, x.item.Ok) (hu : ¬ Usable sec (l.map (·.item))) :
    readSection sec (l.map Line.text) = .error .unbound ∨ readSection sec (l.map Line.text) = .error .key := by
  have hi := items_ok hok
  unfold Usable at hu
  push Not at hu
  obtain ⟨hh, hu⟩ := hu
  have hh : (l.map (·.item)).any Item.isHead = true := by simpa using hh
  obtain ⟨i, him, hih⟩ := List.any_eq_true.mp hh
  have ⟨s0, hs0⟩ : ∃ s, i = .head s := by cases i <;> simp_all [Item.isHead]
  subst hs0
  have ha : '&' ∈ strip s0 := (mem_strip sp_amp s0).mpr (hi _ him).1
  unfold readSection cleanFile
  dsimp only
  rw [kept hok, if_neg (sections_ne (head_mem him) ha)]
  by_cases hl : Led none (l.map (·.item))
  · right
    obtain ⟨d', h1, -, h3⟩ := walk_ok sec hi none (sections ((l.map (·.item)).filterMap core)) hl
    have hno : ∀ s, Item.head s ∈ l.map (·.item) → strip s ≠ sec := by
      intro s hs he
      rcases hl with hl | hl
      · simp at hl
      · obtain ⟨pre, a, b, post, he', hb, hp⟩ := hu ⟨s, hs, he⟩
        have := hl pre a b post he' hb
        simp [this] at hp
    have hg : get sec (sections ((l.map (·.item)).filterMap core)) = none := by
      rw [get_sections, if_neg]
      rintro ⟨hm, ham⟩
      obtain ⟨s, hs, he⟩ := core_amp hi hm ham
      exact hno s hs he
    have h3 := h3 hg (by rw [inSection_none (by simp) hno]; rfl)
    rw [h1]
    dsimp only
    rw [h3]
  · left
    rw [walk_unbound hi _ hl]

/-! ## Where a line is not read as MESA reads it -/

/-- **C103 (violated).** A file which starts a section and lacks another one is refused for the other one, although
every parameter not given has a default. -/
theorem C103_missing_section_violated :
    readSection (chars! "&star_job") [(chars! "&controls"), (chars! "  initial_mass = 10"), (chars! "/")] = .error .key := by decide +kernel

/-- **C103 (violated).** An exclamation mark inside a quoted text ends the value. -/
theorem C103_exclamation_violated :
    readSection (chars! "&controls") [(chars! "&controls"), (chars! "log_directory = 'run!1'")] =
      .ok [((chars! "log_directory"), (chars! "'run"))] := by decide +kernel

/-- **C103 (violated).** An ampersand inside a quoted text makes the line the start of a section: the assignment is
lost, and so are those which follow. -/
theorem C103_ampersand_violated :
    readSection (chars! "&controls") [(chars! "&controls"), (chars! "log_directory = 'a&b'"), (chars! "initial_z = 0.02")] = .ok [] := by
  decide +kernel

/-! ## Layers -/

theorem last_map_filter (p : Text) (f : Text → Text) (g : Text → Bool) (l : List (Text × Text)) :
    last p ((l.filter fun a => g a.1).map fun a => (f a.1, a.2)) =
      ((l.filter fun e => g e.1 && decide (f e.1 = p)).getLast?).map (·.2) := by
  unfold last
  rw [List.filter_map, List.getLast?_map, Option.map_map, List.filter_filter]
  have : (l.filter fun a => ((fun e => decide (e.1 = p)) ∘ fun a : Text × Text => (f a.1, a.2)) a && g a.1) =
      l.filter fun e => g e.1 && decide (f e.1 = p) := by
    apply List.filter_congr
    intro x _
    simp [Bool.and_comm]
  rw [this]
  rfl

theorem layer_eq (ctrl : Bool) (fin d : Dict Text) :
    layer ctrl fin d = fill fin ((d.filter fun a => !skip a.1).map fun a => (rename ctrl a.1, a.2)) := by
  induction d generalizing fin with
  | nil => rfl
  | cons e d ih =>
    have : layer ctrl fin (e :: d) = layer ctrl (if skip e.1 then fin else set (rename ctrl e.1) e.2 fin) d := rfl
    rw [this, ih]
    cases h : skip e.1 <;> simp [h, fill]

theorem last_none {p : Text} {l : List (Text × Text)} (h : p ∉ l.map (·.1)) : last p l = none := by
  induction l with
  | nil => rfl
  | cons x l ih =>
    simp only [List.map_cons, List.mem_cons, not_or] at h
    rw [last_cons, ih h.2, if_neg (Ne.symm h.1)]; rfl

theorem last_nodup (p : Text) (d : Dict Text) (h : (d.map (·.1)).Nodup) : last p d = get p d := by
  induction d with
  | nil => rfl
  | cons x d ih =>
    simp only [List.map_cons, List.nodup_cons] at h
    rw [last_cons, ih h.2]
    by_cases hx : x.1 = p
    · rw [← hx, get_none h.1]; simp [get]
    · cases hg : get p d <;> simp [get, hx, hg]

theorem keys_fill {l : List (Text × Text)} {d : Dict Text} {p : Text} (h : p ∈ (fill d l).map (·.1)) : p ∈ d.map (·.1) ∨ p ∈ l.map (·.1) := by
  obtain ⟨e, he, rfl⟩ := List.mem_map.mp h
  rcases mem_fill he with he | he
  · exact .inl (List.mem_map_of_mem he)
  · exact .inr (List.mem_map_of_mem he)

/-- Only one parameter of a file can become the parameter `p`. -/
def Alone (ctrl : Bool) (p : Text) (l : List (Text × Text)) : Prop :=
  ∀ a ∈ l, ∀ b ∈ l, skip a.1 = false → skip b.1 = false → rename ctrl a.1 = p → rename ctrl b.1 = p → a.1 = b.1

theorem last_taken (ctrl : Bool) (p : Text) (l : List (Text × Text)) (h : Alone ctrl p l) :
    last p (((fill [] l).filter fun a => !skip a.1).map fun a => (rename ctrl a.1, a.2)) =
      last p ((l.filter fun a => !skip a.1).map fun a => (rename ctrl a.1, a.2)) := by
  rw [last_map_filter p (rename ctrl) (fun k => !skip k), last_map_filter p (rename ctrl) (fun k => !skip k)]
  by_cases hx : ∃ a ∈ l, skip a.1 = false ∧ rename ctrl a.1 = p
  · obtain ⟨a, ha, h1, h2⟩ := hx
    have e1 : ∀ (m : List (Text × Text)), (∀ e ∈ m, e.1 ∈ l.map (·.1)) →
        (m.filter fun e => !skip e.1 && decide (rename ctrl e.1 = p)) = m.filter fun e => decide (e.1 = a.1) := by
      intro m hm
      apply List.filter_congr
      intro e he
      obtain ⟨b, hb, hbe⟩ := List.mem_map.mp (hm e he)
      by_cases hk : e.1 = a.1
      · simp [hk, h1, h2]
      · have : ¬ (skip e.1 = false ∧ rename ctrl e.1 = p) := fun ⟨h3, h4⟩ =>
          hk (by rw [← hbe]; exact h b hb a ha (hbe ▸ h3) h1 (hbe ▸ h4) h2)
        cases h5 : skip e.1
        · have : rename ctrl e.1 ≠ p := fun h6 => this ⟨h5, h6⟩
          simp [hk, this]
        · simp [hk]
    rw [e1 _ (fun e he => by
      rcases keys_fill (List.mem_map_of_mem he) with h3 | h3
      · simp at h3
      · exact h3), e1 l (fun e he => List.mem_map_of_mem he)]
    have e2 : last a.1 (fill [] l) = last a.1 l := by
      rw [last_nodup _ _ (nodup_fill _ [] List.nodup_nil), get_fill]
      cases last a.1 l <;> rfl
    exact e2
  · push Not at hx
    have e1 : ∀ (m : List (Text × Text)), (∀ e ∈ m, e ∈ l) →
        (m.filter fun e => !skip e.1 && decide (rename ctrl e.1 = p)) = [] := by
      intro m hm
      rw [List.filter_eq_nil_iff]
      intro e he
      have := hx e (hm e he)
      cases h5 : skip e.1
      · simp [this h5]
      · simp
    rw [e1 _ (fun e he => by
      rcases mem_fill he with h3 | h3
      · simp at h3
      · exact h3), e1 l (fun e he => he)]

/-- The files the entries of the ini file point to are readable. -/
def Readable (docs : Text → Option (List Line)) (inl : Dict Val) : Prop :=
  ∀ e ∈ inl, ∀ t, target e.1 = some t → e.2 ≠ .none →
    ∃ p l, e.2 = .path p ∧ docs p = some l ∧ (∀ x ∈ l, x.item.Ok) ∧ Usable t.section (l.map (·.item))

/-- Opening a file. -/
def opening (docs : Text → Option (List Line)) (p : Text) : Except Err (List Text) :=
  match docs p with
  | none => .error .file
  | some l => .ok (l.map Line.text)

/-- In none of the files two parameters become the parameter `p`. -/
def AloneIn (docs : Text → Option (List Line)) (t : Target) (p : Text) (inl : Dict Val) : Prop :=
  ∀ e ∈ inl, target e.1 = some t → ∀ q l, e.2 = .path q → docs q = some l → Alone t.controls p (full (told t.section (l.map (·.item))))

theorem last_append (p : Text) (a b : List (Text × Text)) : last p (a ++ b) = (last p b).or (last p a) := by
  induction a with
  | nil => cases h : last p b <;> simp [last] <;> simpa [last] using h
  | cons x a ih =>
    rw [List.cons_append, last_cons, ih, last_cons]
    cases last p b <;> simp

theorem layers_ok {docs : Text → Option (List Line)} {inl : Dict Val} (h : Readable docs inl) (F : Finals) :
    ∃ G, layers (opening docs) F inl = .ok G ∧
      ∀ t p, AloneIn docs t p inl → get p (G t) = (last p (assigned docs t inl)).or (get p (F t)) := by
  induction inl generalizing F with
  | nil => exact ⟨F, rfl, fun t p _ => rfl⟩
  | cons e inl ih =>
    obtain ⟨k, v⟩ := e
    have ih := ih fun e he => h e (List.mem_cons_of_mem _ he)
    have hsub : ∀ {t p}, AloneIn docs t p ((k, v) :: inl) → AloneIn docs t p inl := fun ha e he => ha e (List.mem_cons_of_mem _ he)
    have hskip : (v = .none ∨ target k = none) → ∃ G, layers (opening docs) F ((k, v) :: inl) = .ok G ∧
        ∀ t p, AloneIn docs t p ((k, v) :: inl) → get p (G t) = (last p (assigned docs t ((k, v) :: inl))).or (get p (F t)) := by
      intro hv
      obtain ⟨G, h1, h2⟩ := ih F
      have ea : ∀ t, assigned docs t ((k, v) :: inl) = assigned docs t inl := by
        intro t
        rcases hv with hv | hv
        · simp [assigned, hv]
        · cases v <;> simp [assigned, hv]
      refine ⟨G, ?_, fun t p ha => by rw [ea]; exact h2 t p (hsub ha)⟩
      rw [← h1]
      rcases hv with hv | hv
      · rw [hv]; rfl
      · cases v <;> simp [layers, hv]
    by_cases hv : v = .none
    · exact hskip (.inl hv)
    cases ht : target k with
    | none => exact hskip (.inr ht)
    | some t0 =>
      obtain ⟨q, l, he, hd, hok, hu⟩ := h (k, v) List.mem_cons_self t0 ht hv
      dsimp only at he
      subst he
      have hr := C103_read_all t0.section hok hu
      obtain ⟨G, h1, h2⟩ := ih (upd F t0 (layer t0.controls (F t0) (fill [] (full (told t0.section (l.map (·.item)))))))
      refine ⟨G, ?_, fun t p ha => ?_⟩
      · rw [← h1]
        simp only [layers, ht, openVal, opening, hd, hr]
      · rw [h2 t p (hsub ha)]
        by_cases htt : t = t0
        · subst htt
          have ea : assigned docs t ((k, .path q) :: inl) =
              ((full (told t.section (l.map (·.item)))).filter fun a => !skip a.1).map (fun a => (rename t.controls a.1, a.2)) ++ assigned docs t inl := by
            simp [assigned, ht, hd]
          rw [ea, last_append, show upd F t _ t = layer t.controls (F t) (fill [] (full (told t.section (l.map (·.item))))) from if_pos rfl,
            layer_eq, get_fill, last_taken _ _ _ (ha _ List.mem_cons_self ht q l rfl hd), Option.or_assoc]
        · have ea : assigned docs t ((k, .path q) :: inl) = assigned docs t inl := by
            simp [assigned, ht, Ne.symm htt]
          rw [ea, show upd F t0 _ t = F t from if_neg htt]

/-- The parameters which the set-up itself gives a value. -/
def own : List Text :=
  [(chars! "read_extra_controls_inlist1"), (chars! "extra_controls_inlist1_name"), (chars! "read_extra_star_job_inlist1"),
   (chars! "extra_star_job_inlist1_name"), (chars! "inlist_names(1)"), (chars! "inlist_names(2)"),
   (chars! "create_pre_main_sequence_model"), (chars! "load_saved_model"), (chars! "saved_model_name"),
   (chars! "write_profile_when_terminate"), (chars! "filename_for_profile_when_terminate"), (chars! "save_model_when_terminate"),
   (chars! "save_model_filename"), (chars! "do_history_file"), (chars! "history_interval"), (chars! "zams_filename")]

theorem get_own {p k v : Text} {d : Dict Text} (hp : p ∉ own) (hk : k ∈ own) : get p (set k v d) = get p d := by
  rw [get_set, if_neg]
  rintro rfl
  exact hp hk

theorem get_switch {p : Text} (hp : p ∉ own) (cols : List Text) (F : Finals) (t : Target) : get p (switch cols F t) = get p (F t) := by
  cases t <;> unfold switch <;> dsimp only <;> try rfl
  all_goals
    split
    · rw [get_own hp (by decide +kernel), get_own hp (by decide +kernel)]
    · rfl

theorem get_names {p : Text} (hp : p ∉ own) (a b : Text) (F : Finals) (t : Target) : get p (inlistNames a b F t) = get p (F t) := by
  unfold inlistNames upd
  split
  · rename_i h; subst h
    rw [get_own hp (by decide +kernel), get_own hp (by decide +kernel)]
  · rfl

theorem get_loads {p : Text} (hp : p ∉ own) (star : Text) (is : List ℕ) (d : Dict Text) :
    get p (is.foldl (fun d i => binaryLoads star i d) d) = get p d := by
  induction is generalizing d with
  | nil => rfl
  | cons i is ih =>
    rw [List.foldl_cons, ih]
    unfold binaryLoads
    rw [get_own hp (by decide +kernel), get_own hp (by decide +kernel), get_own hp (by decide +kernel)]

theorem get_outJob {p : Text} (hp : p ∉ own) (star : Text) (a b : Bool) (d : Dict Text) : get p (outJob star a b d) = get p d := by
  cases a <;> cases b <;> simp only [outJob, if_true, if_false, Bool.false_eq_true] <;>
    repeat rw [get_own hp (by decide +kernel)]

theorem get_outControls {p : Text} (hp : p ∉ own) (h : Bool) (i : Text) (z : Option Text) (d : Dict Text) : get p (outControls h i z d) = get p d := by
  cases z <;> simp only [outControls] <;> repeat rw [get_own hp (by decide +kernel)]

theorem get_outputs {p : Text} (hp : p ∉ own) (c : Cfg) (F : Finals) (t : Target) : get p (outputs c F t) = get p (F t) := by
  cases t <;> simp only [outputs]
  · split
    · rw [get_own hp (by decide +kernel)]
    · rw [get_own hp (by decide +kernel), get_own hp (by decide +kernel)]
  · exact get_outJob hp _ _ _ _
  · exact get_outJob hp _ _ _ _
  · exact get_outControls hp _ _ _ _
  · exact get_outControls hp _ _ _ _

theorem formation_job {files : Text → Except Err (List Text)} {kd : Kind} {star : Text} {zfix : Dict Text → Dict Text} {entries : Dict Val}
    {job : Dict Text} {s : List (Dict Text × Dict Text)} {j : Dict Text} (h : formation files kd star zfix entries job = .ok (s, j)) :
    (entries = [] ∧ s = [] ∧ j = job) ∨
      (entries ≠ [] ∧ manySteps (oneStep files kd star zfix entries) 0 (stepCount entries) = .ok s ∧
        j = (List.range (stepCount entries)).foldl (fun d i => binaryLoads star i d) job) := by
  unfold formation at h
  by_cases he : entries = []
  · rw [if_pos he] at h; cases h; exact .inl ⟨he, rfl, rfl⟩
  · rw [if_neg he] at h
    cases hm : manySteps (oneStep files kd star zfix entries) 0 (stepCount entries) with
    | error e => rw [hm] at h; cases h
    | ok s' => rw [hm] at h; cases h; exact .inr ⟨he, rfl, rfl⟩

theorem construct_parts {files : Text → Except Err (List Text)} {c : Cfg} {inl : Dict Val} {cols : List Text} {a b : Text} {o : Out}
    (h : construct files c inl cols a b = .ok o) : ∃ F j1 j2, binaryPart files c inl cols a b = .ok F ∧
      formation files kind1 (chars! "star1") (stepZams c.single c.zams1) (entries1 c inl) (F .star1Job) = .ok (o.steps1, j1) ∧
      formation files kind2 (chars! "star2") id (entries2 c inl) (F .star2Job) = .ok (o.steps2, j2) ∧
      o.fin = outputs c (upd (upd F .star1Job j1) .star2Job j2) := by
  unfold construct at h
  cases hF : binaryPart files c inl cols a b with
  | error e => rw [hF] at h; cases h
  | ok F =>
    rw [hF] at h; dsimp only at h
    cases h1 : formation files kind1 (chars! "star1") (stepZams c.single c.zams1) (entries1 c inl) (F .star1Job) with
    | error e => rw [h1] at h; cases h
    | ok r1 =>
      rw [h1] at h; dsimp only at h
      cases h2 : formation files kind2 (chars! "star2") id (entries2 c inl) (F .star2Job) with
      | error e => rw [h2] at h; cases h
      | ok r2 => rw [h2] at h; cases h; exact ⟨F, r1.2, r2.2, rfl, h1, h2, rfl⟩

theorem get_formation {p : Text} (hp : p ∉ own) {files : Text → Except Err (List Text)} {kd : Kind} {star : Text} {zfix : Dict Text → Dict Text}
    {entries : Dict Val} {job : Dict Text} {s : List (Dict Text × Dict Text)} {j : Dict Text}
    (h : formation files kd star zfix entries job = .ok (s, j)) : get p j = get p job := by
  rcases formation_job h with ⟨_, _, rfl⟩ | ⟨_, _, rfl⟩
  · rfl
  · exact get_loads hp _ _ _

/-- **C103.** A parameter of a binary run has the last value assigned to it by the inlists of the ini file, in the order
of the ini file, whatever the other settings are, unless the set-up itself sets it. -/
theorem C103_final {docs : Text → Option (List Line)} {c : Cfg} {inl : Dict Val} {cols : List Text} {a b : Text} {o : Out}
    (hs : c.single = false) (hr : Readable docs inl) (h : construct (opening docs) c inl cols a b = .ok o)
    (t : Target) (p : Text) (hp : p ∉ own) (ha : AloneIn docs t p inl) : get p (o.fin t) = last p (assigned docs t inl) := by
  obtain ⟨F, j1, j2, hF, h1, h2, h3⟩ := construct_parts h
  obtain ⟨G, hG, hg⟩ := layers_ok hr (fun _ => [])
  unfold binaryPart at hF
  rw [hs, hG] at hF
  have hF : F = inlistNames a b (switch cols G) := by cases hF; rfl
  rw [h3, get_outputs hp]
  have key : get p (upd (upd F .star1Job j1) .star2Job j2 t) = get p (F t) := by
    unfold upd
    by_cases e2 : t = .star2Job
    · rw [if_pos e2, get_formation hp h2, e2]
    · rw [if_neg e2]
      by_cases e1 : t = .star1Job
      · rw [if_pos e1, get_formation hp h1, e1]
      · rw [if_neg e1]
  rw [key, hF, get_names hp, get_switch hp, hg t p ha]
  cases last p (assigned docs t inl) <;> rfl

/-- **C103.** A parameter which the last inlist of its kind in the ini file assigns has the value given there. -/
theorem C103_later_wins {docs : Text → Option (List Line)} {c : Cfg} {inl pre post : Dict Val} {cols : List Text} {a b k q : Text} {o : Out}
    {l : List Line} {t : Target} {p v : Text} (hs : c.single = false) (hr : Readable docs inl)
    (h : construct (opening docs) c inl cols a b = .ok o)
    (hi : inl = pre ++ (k, .path q) :: post) (hk : target k = some t) (hq : docs q = some l)
    (hpost : ∀ e ∈ post, e.2 ≠ .none → target e.1 ≠ some t)
    (hp : p ∉ own) (hsk : skip p = false) (hn : ¬ (chars! "num_x_ctrls") <:+: p) (ha : AloneIn docs t p inl)
    (hv : last p (full (told t.section (l.map (·.item)))) = some v) : get p (o.fin t) = some v := by
  rw [C103_final hs hr h t p hp ha, hi]
  have e0 : assigned docs t post = [] := by
    unfold assigned
    rw [List.flatMap_eq_nil_iff]
    intro e he
    cases hv' : e.2 with
    | path q' => simp only [if_neg (hpost e he (by rw [hv']; simp))]
    | none => rfl
    | paths l => rfl
    | other => rfl
  have e1 : assigned docs t (pre ++ (k, .path q) :: post) = assigned docs t pre ++
      ((full (told t.section (l.map (·.item)))).filter fun a => !skip a.1).map (fun a => (rename t.controls a.1, a.2)) := by
    have : assigned docs t ((k, .path q) :: post) =
        ((full (told t.section (l.map (·.item)))).filter fun a => !skip a.1).map (fun a => (rename t.controls a.1, a.2)) ++ assigned docs t post := by
      simp [assigned, hk, hq]
    rw [show assigned docs t (pre ++ (k, .path q) :: post) = assigned docs t pre ++ assigned docs t ((k, .path q) :: post) by
      simp [assigned], this, e0, List.append_nil]
  have hren : rename t.controls p = p := by unfold rename; rw [if_neg (fun h => hn h.2)]
  have hmem : (p, v) ∈ full (told t.section (l.map (·.item))) := by
    unfold last at hv
    obtain ⟨x, hx, rfl⟩ := Option.map_eq_some_iff.mp hv
    have := List.mem_of_getLast? hx
    simp only [List.mem_filter, decide_eq_true_eq] at this
    obtain ⟨x1, x2⟩ := x
    dsimp only at this
    rw [← this.2]; exact this.1
  have hal := ha (k, .path q) (by rw [hi]; simp) hk q l rfl hq
  have e2 : last p (((full (told t.section (l.map (·.item)))).filter fun a => !skip a.1).map fun a => (rename t.controls a.1, a.2)) = some v := by
    rw [last_map_filter p (rename t.controls) (fun k => !skip k), ← hv]
    unfold last
    congr 2
    apply List.filter_congr
    intro e he
    by_cases hk' : e.1 = p
    · simp [hk', hsk, hren]
    · cases h5 : skip e.1
      · have : rename t.controls e.1 ≠ p := fun h6 => hk' (hal e he (p, v) hmem h5 hsk h6 hren)
        simp [hk', this]
      · simp [hk']
  rw [e1, last_append, e2]; rfl

/-! ## Parameters which are left out -/

theorem skip_fill {d : Dict Text} {p : Text} (hp : skip p = true) (ctrl : Bool) (hr : ∀ k, skip k = false → rename ctrl k ≠ p) (fin : Dict Text) :
    get p (layer ctrl fin d) = get p fin := by
  rw [layer_eq, get_fill]
  have : last p ((d.filter fun a => !skip a.1).map fun a => (rename ctrl a.1, a.2)) = none := by
    apply last_none
    simp only [List.map_map, List.mem_map, List.mem_filter, Function.comp, not_exists, not_and]
    intro x hx hxp
    exact hr x.1 (by simpa using hx.2) hxp
  rw [this]; rfl

theorem layers_cases {files : Text → Except Err (List Text)} {inl : Dict Val} {F G : Finals} {k : Text} {v : Val} {t0 : Target}
    (h : layers files F ((k, v) :: inl) = .ok G) (ht : target k = some t0) (hv : v ≠ .none) :
    ∃ lines d, openVal files v = .ok lines ∧ readSection t0.section lines = .ok d ∧
      layers files (upd F t0 (layer t0.controls (F t0) d)) inl = .ok G := by
  have key : ∀ w, w ≠ Val.none → layers files F ((k, w) :: inl) =
      match openVal files w with
      | .error e => .error e
      | .ok lines =>
          match readSection t0.section lines with
          | .error e => .error e
          | .ok d => layers files (upd F t0 (layer t0.controls (F t0) d)) inl := by
    intro w hw
    cases w with
    | none => exact absurd rfl hw
    | path q => rw [layers.eq_def]; simp only [ht]; rfl
    | paths q => rw [layers.eq_def]; simp only [ht]; rfl
    | other => rw [layers.eq_def]; simp only [ht]; rfl
  rw [key v hv] at h
  cases ho : openVal files v with
  | error e => rw [ho] at h; cases h
  | ok lines =>
    rw [ho] at h; dsimp only at h
    cases hd : readSection t0.section lines with
    | error e => rw [hd] at h; cases h
    | ok d => rw [hd] at h; exact ⟨lines, d, rfl, hd, h⟩

theorem layers_skip {files : Text → Except Err (List Text)} {inl : Dict Val} {F G : Finals} (h : layers files F inl = .ok G) {t : Target} {p : Text}
    (hp : skip p = true) (hr : ∀ k, skip k = false → rename t.controls k ≠ p) : get p (G t) = get p (F t) := by
  induction inl generalizing F with
  | nil => cases h; rfl
  | cons e inl ih =>
    obtain ⟨k, v⟩ := e
    have hmain : ∀ t0, target k = some t0 → v ≠ .none → get p (G t) = get p (F t) := by
      intro t0 ht hv
      obtain ⟨lines, d, _, _, h'⟩ := layers_cases h ht hv
      rw [ih h']
      unfold upd
      by_cases htt : t = t0
      · rw [if_pos htt, ← htt]; exact skip_fill hp _ hr _
      · rw [if_neg htt]
    have hrest : (v = .none ∨ target k = none) → layers files F ((k, v) :: inl) = layers files F inl := by
      intro hv
      rcases hv with hv | hv
      · rw [hv]; rfl
      · cases v <;> simp [layers, hv]
    by_cases hv : v = .none
    · exact ih (by rw [← hrest (.inl hv)]; exact h)
    · cases ht : target k with
      | none => exact ih (by rw [← hrest (.inr ht)]; exact h)
      | some t0 => exact hmain t0 ht hv

theorem rename_job (k : Text) : rename false k = k := by unfold rename; rw [if_neg]; simp

/-- The replacement of `num_x_ctrls` keeps the first character apart from a leading replacement. -/
theorem not_mem_repl {c : Char} (hc : c ≠ '1') (n : ℕ) (k : Text) (h : c ∉ k) : c ∉ Verif.Channel.repl (chars! "num_x_ctrls") (chars! "1") n k := by
  induction k generalizing n with
  | nil => cases n <;> simp [Verif.Channel.repl]
  | cons x k ih =>
    simp only [List.mem_cons, not_or] at h
    cases n with
    | zero =>
      unfold Verif.Channel.repl
      split
      · simp only [List.mem_append, List.mem_cons, not_or, List.not_mem_nil, or_false]
        exact ⟨hc, ih _ h.2⟩
      · simp only [List.mem_cons, not_or]; exact ⟨h.1, ih _ h.2⟩
    | succ n => exact ih n h.2

/-- **C103.** The files for the values of a grid point are switched on for a star exactly if one of the columns of the
grid is a parameter in the inlists of the star. -/
theorem C103_switch (cols : List Text) (F : Finals) (hF : ∀ t, get (chars! "read_extra_controls_inlist1") (F t) = none ∧ get (chars! "read_extra_star_job_inlist1") (F t) = none) :
    (get (chars! "read_extra_controls_inlist1") (switch cols F .star1Controls) = some (chars! ".true.") ↔ ∃ c ∈ cols, (get c (F .star1Controls)).isSome = true) ∧
    (get (chars! "read_extra_controls_inlist1") (switch cols F .star2Controls) = some (chars! ".true.") ↔ ∃ c ∈ cols, (get c (F .star2Controls)).isSome = true) ∧
    (get (chars! "read_extra_star_job_inlist1") (switch cols F .star1Job) = some (chars! ".true.") ↔ ∃ c ∈ cols, (get c (F .star1Job)).isSome = true) ∧
    (get (chars! "read_extra_star_job_inlist1") (switch cols F .star2Job) = some (chars! ".true.") ↔ ∃ c ∈ cols, (get c (F .star2Job)).isSome = true) := by
  have hc : ∀ t, columnsIn cols (F t) ≠ [] ↔ ∃ c ∈ cols, (get c (F t)).isSome = true := by
    intro t
    unfold columnsIn
    rw [Ne, List.filter_eq_nil_iff]
    push Not
    rfl
  refine ⟨?_, ?_, ?_, ?_⟩ <;>
  · rw [← hc]
    unfold switch
    dsimp only
    split
    · rename_i h
      rw [get_set, if_neg (by decide +kernel), get_set, if_pos rfl]
      simp [h]
    · rename_i h
      rw [show get _ _ = none from by first | exact (hF _).1 | exact (hF _).2]
      simpa using h

/-! ## What the set-up itself sets -/

theorem not_own_get {p k v : Text} {d : Dict Text} (h : p ≠ k) : get p (set k v d) = get p d := by rw [get_set, if_neg h]

/-- **C103.** Which files MESA writes for a star is what the ini file asks for, whatever the inlists say. -/
theorem C103_output {files : Text → Except Err (List Text)} {c : Cfg} {inl : Dict Val} {cols : List Text} {a b : Text} {o : Out}
    (h : construct files c inl cols a b = .ok o) :
    get (chars! "write_profile_when_terminate") (o.fin .star1Job) = some (if c.profile1 then (chars! ".true.") else (chars! ".false.")) ∧
    get (chars! "write_profile_when_terminate") (o.fin .star2Job) = some (if c.profile2 then (chars! ".true.") else (chars! ".false.")) ∧
    get (chars! "save_model_when_terminate") (o.fin .star1Job) = some (if c.model1 then (chars! ".true.") else (chars! ".false.")) ∧
    get (chars! "save_model_when_terminate") (o.fin .star2Job) = some (if c.model2 then (chars! ".true.") else (chars! ".false.")) ∧
    get (chars! "do_history_file") (o.fin .star1Controls) = some (if c.history1 then (chars! ".true.") else (chars! ".false.")) ∧
    get (chars! "do_history_file") (o.fin .star2Controls) = some (if c.history2 then (chars! ".true.") else (chars! ".false.")) ∧
    get (chars! "history_interval") (o.fin .binControls) = some (if c.binaryHistory then c.interval else (chars! "-1")) := by
  obtain ⟨F, j1, j2, -, -, -, h3⟩ := construct_parts h
  rw [h3]
  have job : ∀ star p m d, get (chars! "write_profile_when_terminate") (outJob star p m d) = some (if p then (chars! ".true.") else (chars! ".false.")) ∧
      get (chars! "save_model_when_terminate") (outJob star p m d) = some (if m then (chars! ".true.") else (chars! ".false.")) := by
    intro star p m d
    have n1 : (chars! "write_profile_when_terminate") ≠ (chars! "save_model_filename") := by decide +kernel
    have n2 : (chars! "write_profile_when_terminate") ≠ (chars! "save_model_when_terminate") := by decide +kernel
    have n3 : (chars! "write_profile_when_terminate") ≠ (chars! "filename_for_profile_when_terminate") := by decide +kernel
    have n4 : (chars! "save_model_when_terminate") ≠ (chars! "save_model_filename") := by decide +kernel
    cases p <;> cases m <;> simp only [outJob, if_true, Bool.false_eq_true, if_false] <;> constructor <;>
      simp only [get_set, n1, n2, n3, n4, if_true, if_false]
  have ctl : ∀ hh i z d, get (chars! "do_history_file") (outControls hh i z d) = some (if hh then (chars! ".true.") else (chars! ".false.")) := by
    intro hh i z d
    have n1 : (chars! "do_history_file") ≠ (chars! "history_interval") := by decide +kernel
    have n2 : (chars! "do_history_file") ≠ (chars! "zams_filename") := by decide +kernel
    cases z <;> simp only [outControls, get_set, n1, n2, if_true, if_false]
  refine ⟨(job _ _ _ _).1, (job _ _ _ _).1, (job _ _ _ _).2, (job _ _ _ _).2, ctl _ _ _ _, ctl _ _ _ _, ?_⟩
  cases hb : c.binaryHistory <;> simp [outputs, hb, get_set]

/-! ## Formation -/

theorem many_spec {f : ℕ → Except Err (Dict Text × Dict Text)} {i n : ℕ} {s : List (Dict Text × Dict Text)} (h : manySteps f i n = .ok s) :
    s.length = n ∧ ∀ k, k < n → ∃ r, s[k]? = some r ∧ f (i + k) = .ok r := by
  induction n generalizing i s with
  | zero => cases h; exact ⟨rfl, fun k hk => absurd hk (by omega)⟩
  | succ n ih =>
    unfold manySteps at h
    cases hf : f i with
    | error e => rw [hf] at h; cases h
    | ok r =>
      rw [hf] at h; dsimp only at h
      cases hm : manySteps f (i + 1) n with
      | error e => rw [hm] at h; cases h
      | ok rs =>
        rw [hm] at h; cases h
        obtain ⟨h1, h2⟩ := ih hm
        refine ⟨by simp [h1], fun k hk => ?_⟩
        cases k with
        | zero => exact ⟨r, rfl, hf⟩
        | succ k =>
          obtain ⟨r', h3, h4⟩ := h2 k (by omega)
          exact ⟨r', by simpa using h3, by rw [← h4]; congr 1; omega⟩

theorem stepJob_get (star : Text) (k : ℕ) (d : Dict Text) :
    get (chars! "save_model_when_terminate") (stepJob star k d) = some (chars! ".true.") ∧
    get (chars! "save_model_filename") (stepJob star k d) = some (modName star k) ∧
    (0 < k → get (chars! "load_saved_model") (stepJob star k d) = some (chars! ".true.") ∧
      get (chars! "saved_model_name") (stepJob star k d) = some (modName star (k - 1)) ∧
      get (chars! "create_pre_main_sequence_model") (stepJob star k d) = some (chars! ".false.")) := by
  have n1 : (chars! "save_model_when_terminate") ≠ (chars! "save_model_filename") := by decide +kernel
  have n2 : (chars! "load_saved_model") ≠ (chars! "save_model_filename") := by decide +kernel
  have n3 : (chars! "load_saved_model") ≠ (chars! "save_model_when_terminate") := by decide +kernel
  have n4 : (chars! "load_saved_model") ≠ (chars! "saved_model_name") := by decide +kernel
  have n5 : (chars! "saved_model_name") ≠ (chars! "save_model_filename") := by decide +kernel
  have n6 : (chars! "saved_model_name") ≠ (chars! "save_model_when_terminate") := by decide +kernel
  have n7 : (chars! "create_pre_main_sequence_model") ≠ (chars! "save_model_filename") := by decide +kernel
  have n8 : (chars! "create_pre_main_sequence_model") ≠ (chars! "save_model_when_terminate") := by decide +kernel
  have n9 : (chars! "create_pre_main_sequence_model") ≠ (chars! "saved_model_name") := by decide +kernel
  have n10 : (chars! "create_pre_main_sequence_model") ≠ (chars! "load_saved_model") := by decide +kernel
  unfold stepJob
  by_cases hk : k = 0
  · rw [if_pos hk]
    exact ⟨by simp only [get_set, n1, if_true, if_false], by simp only [get_set, if_true], fun h => absurd hk (by omega)⟩
  · rw [if_neg hk]
    refine ⟨?_, ?_, fun _ => ⟨?_, ?_, ?_⟩⟩ <;> simp only [get_set, n1, n2, n3, n4, n5, n6, n7, n8, n9, n10, if_true, if_false]

theorem one_job {files : Text → Except Err (List Text)} {kd : Kind} {star : Text} {zfix : Dict Text → Dict Text} {entries : Dict Val} {k : ℕ}
    {r : Dict Text × Dict Text} (h : oneStep files kd star zfix entries k = .ok r) : ∃ d, r.2 = stepJob star k d := by
  unfold oneStep at h
  cases h1 : stepEntries k entries with
  | error e => rw [h1] at h; cases h
  | ok es =>
    rw [h1] at h; dsimp only at h
    cases h2 : stepLayers files kd ([], []) es with
    | error e => rw [h2] at h; cases h
    | ok q => rw [h2] at h; cases h; exact ⟨q.2, rfl⟩

theorem loads_last (star : Text) (n : ℕ) (d : Dict Text) :
    get (chars! "saved_model_name") ((List.range (n + 1)).foldl (fun d i => binaryLoads star i d) d) = some (modName star n) ∧
    get (chars! "load_saved_model") ((List.range (n + 1)).foldl (fun d i => binaryLoads star i d) d) = some (chars! ".true.") := by
  have n1 : (chars! "load_saved_model") ≠ (chars! "saved_model_name") := by decide +kernel
  rw [List.range_succ, List.foldl_append]
  simp only [List.foldl_cons, List.foldl_nil, binaryLoads]
  exact ⟨by rw [get_set, if_pos rfl], by rw [get_set, if_neg n1, get_set, if_pos rfl]⟩

theorem stepCount_pos (entries : Dict Val) : 1 ≤ stepCount entries := by
  unfold stepCount
  have key : ∀ (l : Dict Val) (n : ℕ), 1 ≤ n → 1 ≤ l.foldl (fun n e => match e.2 with | .paths l => max n l.length | _ => n) n := by
    intro l
    induction l with
    | nil => intro n h; exact h
    | cons e l ih =>
      intro n h
      rw [List.foldl_cons]
      apply ih
      cases e.2 <;> simp <;> omega
  exact key entries 1 (le_refl 1)

/-- **C103.** The steps which form a star are a chain: each step writes a model of its own, each later step starts from
the model of the step before, and the binary starts from the model of the last step. -/
theorem C103_chain {files : Text → Except Err (List Text)} {kd : Kind} {star : Text} {zfix : Dict Text → Dict Text} {entries : Dict Val}
    {job : Dict Text} {s : List (Dict Text × Dict Text)} {j : Dict Text} (he : entries ≠ []) (h : formation files kd star zfix entries job = .ok (s, j)) :
    0 < s.length ∧
    (∀ k r, s[k]? = some r → get (chars! "save_model_when_terminate") r.2 = some (chars! ".true.") ∧
      get (chars! "save_model_filename") r.2 = some (modName star k)) ∧
    (∀ k r, s[k + 1]? = some r → get (chars! "load_saved_model") r.2 = some (chars! ".true.") ∧
      get (chars! "saved_model_name") r.2 = some (modName star k)) ∧
    get (chars! "load_saved_model") j = some (chars! ".true.") ∧
    get (chars! "saved_model_name") j = some (modName star (s.length - 1)) := by
  rcases formation_job h with ⟨h0, _, _⟩ | ⟨_, hm, hj⟩
  · exact absurd h0 he
  obtain ⟨hlen, hs⟩ := many_spec hm
  have hpos := stepCount_pos entries
  have hk : ∀ {k r}, s[k]? = some r → ∃ d, r.2 = stepJob star k d := by
    intro k r hr
    have hlt : k < stepCount entries := by rw [← hlen]; exact (List.getElem?_eq_some_iff.mp hr).1
    obtain ⟨r', h1, h2⟩ := hs k hlt
    rw [hr, Option.some.injEq] at h1
    subst h1
    rw [Nat.zero_add] at h2
    exact one_job h2
  refine ⟨by omega, fun k r hr => ?_, fun k r hr => ?_, ?_, ?_⟩
  · obtain ⟨d, hd⟩ := hk hr
    rw [hd]; exact ⟨(stepJob_get star k d).1, (stepJob_get star k d).2.1⟩
  · obtain ⟨d, hd⟩ := hk hr
    rw [hd]
    have := (stepJob_get star (k + 1) d).2.2 (by omega)
    exact ⟨this.1, this.2.1⟩
  · obtain ⟨n, hn⟩ : ∃ n, stepCount entries = n + 1 := ⟨stepCount entries - 1, by omega⟩
    rw [hj, hn]; exact (loads_last star n job).2
  · obtain ⟨n, hn⟩ : ∃ n, stepCount entries = n + 1 := ⟨stepCount entries - 1, by omega⟩
    rw [hj, hn, hlen, hn]; exact (loads_last star n job).1

/-- The models of different steps are different files. -/
theorem C103_models (star : Text) {a b : ℕ} (h : modName star a = modName star b) : a = b := by
  unfold modName at h
  have h1 := List.append_cancel_right h
  have h2 := List.append_cancel_left h1
  have := congrArg Verif.Jobs.digitsVal h2
  rw [Verif.Jobs.digitsVal_dec, Verif.Jobs.digitsVal_dec] at this
  simpa using this

/-- **C103 (violated).** Lists of different lengths for the steps of a star stop the set-up. -/
theorem C103_lengths_violated (files : Text → Except Err (List Text)) (job : Dict Text) (a b c : Text)
    (hf : ∀ p, files p = .ok []) :
    formation files kind2 (chars! "star2") id
      [((chars! "star2_formation_controls_user"), .paths [a, b]), ((chars! "star2_formation_job_user"), .paths [c])] job = .error .index := by
  have k1 : kind2.ctrl (chars! "star2_formation_controls_user") = true := by decide +kernel
  have k2 : kind2.job (chars! "star2_formation_controls_user") = false := by decide +kernel
  have k3 : kind2.ctrl (chars! "star2_formation_job_user") = false := by decide +kernel
  have k4 : kind2.job (chars! "star2_formation_job_user") = true := by decide +kernel
  simp [formation, stepCount, manySteps, oneStep, stepEntries, ofStep, stepLayers, k1, k2, k3, k4, openVal, hf, readSection, cleanFile, sections, get]

/-- **C103.** As many files for each step as steps: all the lists can be cut. -/
theorem C103_lengths {entries : Dict Val} {n k : ℕ} (h : ∀ e ∈ entries, ∀ l, e.2 = .paths l → l.length = n) (hk : k < n) :
    ∃ es, stepEntries k entries = .ok es ∧ es.map (·.1) = entries.map (·.1) ∧ ∀ e ∈ es, ∀ l, e.2 ≠ .paths l := by
  induction entries with
  | nil => exact ⟨[], rfl, rfl, by simp⟩
  | cons e entries ih =>
    obtain ⟨es, h1, h2, h3⟩ := ih fun e he => h e (List.mem_cons_of_mem _ he)
    obtain ⟨nm, v⟩ := e
    have ⟨w, hw, hw'⟩ : ∃ w, ofStep k v = .ok w ∧ ∀ l, w ≠ .paths l := by
      cases v with
      | paths l =>
        have hl := h (nm, .paths l) List.mem_cons_self l rfl
        have : k < l.length := by omega
        exact ⟨.path l[k], by simp [ofStep, this], by simp⟩
      | none => exact ⟨.none, rfl, by simp⟩
      | path p => exact ⟨.path p, rfl, by simp⟩
      | other => exact ⟨.other, rfl, by simp⟩
    refine ⟨(nm, w) :: es, by simp [stepEntries, hw, h1], by simp [h2], ?_⟩
    intro e he
    rcases List.mem_cons.mp he with he | he
    · rw [he]; exact hw'
    · exact h3 e he

/-- **C103 (violated).** For a grid of single stars without a file of models, a file of models named in the inlists stays
in use: what is to remove it tests another name. -/
theorem C103_zams_violated : get (chars! "zams_filename") (stepZams true none [((chars! "zams_filename"), (chars! "'zams.data'"))]) =
    some (chars! "'zams.data'") := by decide +kernel

/-- **C103 (violated).** A grid of single helium stars cannot be set up from its scenario: the entry the file is appended
to does not exist. -/
theorem C103_single_violated (special : Text) (steps : List Text) (inl : Dict Val) (h : get (chars! "star1_controls_special") inl = none) :
    singleLayers (chars! "CO-He_star") special steps inl = .error .key := by
  have n1 : (chars! "star1_controls_special") ≠ (chars! "star1_job_user") := by decide +kernel
  have n2 : (chars! "star1_controls_special") ≠ (chars! "star1_controls_user") := by decide +kernel
  have n3 : (chars! "star1_controls_special") ≠ (chars! "zams_filename_2") := by decide +kernel
  have n4 : (chars! "CO-He_star") ≠ (chars! "HMS-HMS") := by decide +kernel
  unfold singleLayers
  rw [if_neg n4, if_pos rfl]
  dsimp only
  rw [get_set, if_neg n1, get_set, if_neg n2, get_set, if_neg n3, h]

/-! ## Scenarios -/

/-- The two inlists of the example below. -/
def exDocs : Text → Option (List Line) := fun p =>
  if p = (chars! "mine") then some [⟨.head (chars! "&controls"), none⟩, ⟨.put (chars! "  varcontrol_target ") (chars! " 1d-4"), some (chars! " finer")⟩]
  else if p = (chars! "C/binary/inlist1") then
    some [⟨.head (chars! "&controls"), none⟩, ⟨.put (chars! "varcontrol_target ") (chars! " 1d-3"), none⟩, ⟨.head (chars! "&star_job"), none⟩]
  else if p = (chars! "C/binary/inlist2") then some [⟨.head (chars! "&controls"), none⟩, ⟨.head (chars! "&star_job"), none⟩]
  else if p = (chars! "C/binary/inlist_project") then some [⟨.head (chars! "&binary_controls"), none⟩, ⟨.head (chars! "&binary_job"), none⟩]
  else none

def exCfg : Cfg := ⟨false, none, none, false, false, true, true, true, true, true, (chars! "1")⟩

/-- The value of a parameter of the controls of star 1. -/
def star1Value (p : Text) (r : Except Err Out) : Option Text :=
  match r with
  | .error _ => none
  | .ok o => get p (o.fin .star1Controls)

/-- **C103 (violated).** With a scenario, an inlist of the user does not change the physics of the scenario: the inlists
of the scenario are put behind it and win.  (The ini file says they "overwrite or tweak" the scenario.) -/
theorem C103_user_violated :
    star1Value (chars! "varcontrol_target")
      (construct (opening exDocs) exCfg (commonLayers (chars! "C") [((chars! "star1_controls_user"), .path (chars! "mine"))]) [] [] []) =
      some (chars! "1d-3") := by decide +kernel

/-- With the entry of the scenario written out in the ini file in front of it, the inlist of the user wins. -/
example :
    star1Value (chars! "varcontrol_target")
      (construct (opening exDocs) exCfg (commonLayers (chars! "C")
        [((chars! "star1_controls_posydon_defaults"), .none), ((chars! "star1_controls_user"), .path (chars! "mine"))]) [] [] []) =
      some (chars! "1d-4") := by decide +kernel

/-- An entry which is already there keeps its place. -/
theorem keys_present {V : Type} {k : Text} {v : V} {d : Dict V} (h : k ∈ d.map (·.1)) : (set k v d).map (·.1) = d.map (·.1) := by
  induction d with
  | nil => simp at h
  | cons e d ih =>
    by_cases he : e.1 = k
    · simp [set, he]
    · simp only [List.map_cons, List.mem_cons] at h
      rcases h with h | h
      · exact absurd h.symm he
      · simp [set, he, ih h]

/-- **C103.** If the ini file already has the entries of the scenario, the scenario changes no order: with those of the
user behind, the inlists of the user win (`C103_later_wins`). -/
theorem C103_scenario_partial (common : Text) (inl : Dict Val)
    (h : ∀ k ∈ [(chars! "binary_job_posydon_defaults"), (chars! "binary_controls_posydon_defaults"), (chars! "star2_job_posydon_defaults"),
      (chars! "star2_controls_posydon_defaults"), (chars! "star1_job_posydon_defaults"), (chars! "star1_controls_posydon_defaults")], k ∈ inl.map (·.1)) :
    (commonLayers common inl).map (·.1) = inl.map (·.1) := by
  have step : ∀ {k v} {d : Dict Val}, k ∈ inl.map (·.1) → d.map (·.1) = inl.map (·.1) → (set k v d).map (·.1) = inl.map (·.1) := by
    intro k v d hk hd
    rw [keys_present (by rw [hd]; exact hk), hd]
  unfold commonLayers
  exact step (h _ (by simp)) (step (h _ (by simp)) (step (h _ (by simp)) (step (h _ (by simp)) (step (h _ (by simp)) (step (h _ (by simp)) rfl)))))

/-- **C103 (violated).** Emptying a parameter in a later inlist has no effect: the value of the earlier one stays. -/
theorem C103_empty_violated :
    (match layers (fun p => if p = (chars! "a") then .ok [(chars! "zams_filename = 'z.data'")] else .ok [(chars! "zams_filename = ''")]) (fun _ => [])
        [((chars! "star1_controls_mesa_defaults"), .path (chars! "a")), ((chars! "star1_controls_user"), .path (chars! "b"))] with
      | .error _ => none
      | .ok F => get (chars! "zams_filename") (F .star1Controls)) = some (chars! "'z.data'") := by decide +kernel

/-! ## Reading the inlists back -/

/-- A parameter or value which survives being written and read. -/
def PlainKey (k : Text) : Prop := strip k = k ∧ '=' ∉ k ∧ '!' ∉ k ∧ '&' ∉ k
def PlainVal (v : Text) : Prop := strip v = v ∧ '!' ∉ v ∧ '&' ∉ v ∧ blank v = false

def Good (d : Dict Text) : Prop := (d.map (·.1)).Nodup ∧ ∀ e ∈ d, PlainKey e.1 ∧ PlainVal e.2

theorem good_set {d : Dict Text} {k v : Text} (h : Good d) (hk : PlainKey k) (hv : PlainVal v) : Good (set k v d) :=
  ⟨nodup_set _ _ _ h.1, fun e he => by
    rcases mem_set he with he | he
    · rw [he]; exact ⟨hk, hv⟩
    · exact h.2 e he⟩

theorem good_fill {d : Dict Text} {l : List (Text × Text)} (h : Good d) (hl : ∀ e ∈ l, PlainKey e.1 ∧ PlainVal e.2) : Good (fill d l) :=
  ⟨nodup_fill _ _ h.1, fun e he => by
    rcases mem_fill he with he | he
    · exact h.2 e he
    · exact hl e he⟩

theorem good_nil : Good [] := ⟨List.nodup_nil, by simp⟩

theorem told_plain {sec : Text} {items : List Item} (hok : ∀ i ∈ items, i.Ok) : ∀ e ∈ full (told sec items), PlainKey e.1 ∧ PlainVal e.2 := by
  have key : ∀ e ∈ told sec items, ∃ a b, .put a b ∈ items ∧ e = (strip a, strip b) := by
    unfold told
    split
    · have : ∀ (l : List Item) (cur : Option Text), ∀ e ∈ inSection sec cur l, ∃ a b, .put a b ∈ l ∧ e = (strip a, strip b) := by
        intro l
        induction l with
        | nil => intro cur e he; simp [inSection] at he
        | cons i l ih =>
          intro cur e he
          have up : (∃ a b, Item.put a b ∈ l ∧ e = (strip a, strip b)) → ∃ a b, Item.put a b ∈ i :: l ∧ e = (strip a, strip b) :=
            fun ⟨a, b, h1, h2⟩ => ⟨a, b, List.mem_cons_of_mem _ h1, h2⟩
          cases i with
          | head s => exact up (ih _ e he)
          | other s => exact up (ih _ e he)
          | put a b =>
            simp only [inSection] at he
            split at he
            · rcases List.mem_cons.mp he with he | he
              · exact ⟨a, b, List.mem_cons_self, he⟩
              · exact up (ih _ e he)
            · exact up (ih _ e he)
      exact this items none
    · intro e he
      obtain ⟨i, hi, h1⟩ := List.mem_filterMap.mp he
      cases i with
      | put a b => exact ⟨a, b, hi, by simpa using h1.symm⟩
      | head s => simp at h1
      | other s => simp at h1
  intro e he
  unfold full at he
  rw [List.mem_filter] at he
  obtain ⟨a, b, hab, rfl⟩ := key e he.1
  have ho := hok _ hab
  refine ⟨⟨strip_strip _, fun h => ho.1 (strip_sub _ _ h), fun h => ho.2.1 (strip_sub _ _ h), fun h => ho.2.2.1 (strip_sub _ _ h)⟩,
    ⟨strip_strip _, fun h => ho.2.2.2.1 (strip_sub _ _ h), fun h => ho.2.2.2.2 (strip_sub _ _ h), by simpa using he.2⟩⟩

theorem good_read {sec : Text} {lines : List Text} {d : Dict Text} (h : readSection sec lines = .ok d) : Good d := by
  obtain ⟨l, hok, rfl⟩ := exists_lines lines
  by_cases hu : Usable sec (l.map (·.item))
  · rw [C103_read_all sec hok hu] at h
    cases h
    exact good_fill good_nil (told_plain (items_ok hok))
  · rcases C103_refused sec hok hu with h' | h' <;> (rw [h'] at h; cases h)

/-- The text does not end with white space. -/
def EndOk (s : Text) : Prop := ∀ c, s.getLast? = some c → isSpace c = false
def StartOk (s : Text) : Prop := ∀ c, s.head? = some c → isSpace c = false

theorem L_start {s : Text} (h : StartOk s) : L s = s := by
  cases s with
  | nil => rfl
  | cons c s => simp [L, h c rfl]

theorem start_L (s : Text) : StartOk (L s) := by
  intro c hc
  induction s with
  | nil => simp [L] at hc
  | cons x s ih =>
    by_cases hx : isSpace x = true
    · exact ih (by simpa [L, hx] using hc)
    · simp [L, hx] at hc; subst hc; simpa using hx

theorem strip_of {s : Text} (h1 : StartOk s) (h2 : EndOk s) : strip s = s := by
  rw [strip_eq, L_start h1]
  have h3 : StartOk s.reverse := fun c hc => h2 c (by simpa [List.head?_reverse] using hc)
  have := L_start h3
  unfold L at this
  unfold R
  rw [this, List.reverse_reverse]

theorem of_strip {s : Text} (h : strip s = s) : StartOk s ∧ EndOk s := by
  constructor
  · rw [← h, strip_eq, ← LR]; exact start_L _
  · intro c hc
    rw [← h, strip_eq] at hc
    have := start_L (L s).reverse c
    apply this
    unfold R at hc
    rwa [List.getLast?_reverse] at hc

theorem plain_of_pos {k : Text} (h : strip k = k) (n : ℕ) : EndOk (Verif.Channel.repl (chars! "num_x_ctrls") (chars! "1") n k) := by
  have he := (of_strip h).2
  clear h
  induction k generalizing n with
  | nil => cases n <;> (intro c hc; simp [Verif.Channel.repl] at hc)
  | cons x k ih =>
    have he' : EndOk k := fun c hc => he c (by
      cases k with
      | nil => simp at hc
      | cons y k => rw [List.getLast?_cons_cons]; exact hc)
    cases n with
    | succ n => exact ih n he'
    | zero =>
      unfold Verif.Channel.repl
      split
      · intro c hc
        have h2 := ih ((chars! "num_x_ctrls").length - 1) he'
        cases hr : Verif.Channel.repl (chars! "num_x_ctrls") (chars! "1") ((chars! "num_x_ctrls").length - 1) k with
        | nil => rw [hr] at hc; simp at hc; subst hc; decide
        | cons y r =>
          rw [hr] at hc h2
          exact h2 c (by simpa [List.getLast?_cons_cons] using hc)
      · intro c hc
        have h2 := ih 0 he'
        cases k with
        | nil => simp [Verif.Channel.repl] at hc; exact he c (by simp [hc])
        | cons y k =>
          cases hr : Verif.Channel.repl (chars! "num_x_ctrls") (chars! "1") 0 (y :: k) with
          | nil =>
            unfold Verif.Channel.repl at hr
            split at hr <;> simp at hr
          | cons z r =>
            rw [hr] at hc h2
            exact h2 c (by simpa [List.getLast?_cons_cons] using hc)

theorem plain_rename {k : Text} (ctrl : Bool) (h : PlainKey k) : PlainKey (rename ctrl k) := by
  unfold rename
  split
  · refine ⟨strip_of ?_ (plain_of_pos h.1 0), not_mem_repl (by decide) _ _ h.2.1, not_mem_repl (by decide) _ _ h.2.2.1, not_mem_repl (by decide) _ _ h.2.2.2⟩
    have hs := (of_strip h.1).1
    cases k with
    | nil => intro c hc; simp [Verif.Channel.repl] at hc
    | cons x k =>
      intro c hc
      unfold Verif.Channel.repl at hc
      split at hc
      · simp at hc; subst hc; decide
      · simp at hc; subst hc; exact hs x rfl
  · exact h

theorem good_layer {ctrl : Bool} {fin d : Dict Text} (hf : Good fin) (hd : Good d) : Good (layer ctrl fin d) := by
  rw [layer_eq]
  apply good_fill hf
  intro e he
  obtain ⟨x, hx, rfl⟩ := List.mem_map.mp he
  have := hd.2 x (List.mem_of_mem_filter hx)
  exact ⟨plain_rename _ this.1, this.2⟩

theorem good_layers {files : Text → Except Err (List Text)} {inl : Dict Val} {F G : Finals} (h : layers files F inl = .ok G) (hF : ∀ t, Good (F t)) :
    ∀ t, Good (G t) := by
  induction inl generalizing F with
  | nil => cases h; exact hF
  | cons e inl ih =>
    obtain ⟨k, v⟩ := e
    have hrest : (v = .none ∨ target k = none) → layers files F ((k, v) :: inl) = layers files F inl := by
      intro hv
      rcases hv with hv | hv
      · rw [hv]; rfl
      · cases v <;> simp [layers, hv]
    by_cases hv : v = .none
    · exact ih (by rw [← hrest (.inl hv)]; exact h) hF
    · cases ht : target k with
      | none => exact ih (by rw [← hrest (.inr ht)]; exact h) hF
      | some t0 =>
        obtain ⟨lines, d, _, hd, h'⟩ := layers_cases h ht hv
        refine ih h' fun t => ?_
        unfold upd
        split
        · exact good_layer (hF _) (good_read hd)
        · exact hF t

instance (k : Text) : Decidable (PlainKey k) := by unfold PlainKey; infer_instance
instance (k : Text) : Decidable (PlainVal k) := by unfold PlainVal; infer_instance

theorem own_plain : ∀ k ∈ own, PlainKey k := by decide +kernel

theorem plain_quote {s : Text} (h1 : '!' ∉ s) (h2 : '&' ∉ s) (h3 : s ≠ []) (h4 : s ≠ ['.']) : PlainVal (quote s) := by
  refine ⟨strip_of (fun c hc => by simp [quote] at hc; subst hc; decide) (fun c hc => ?_), ?_, ?_, ?_⟩
  · rw [show quote s = ('\'' :: s) ++ ['\''] from rfl, List.getLast?_append] at hc
    simp at hc; subst hc; decide
  · unfold quote; simp [h1]
  · unfold quote; simp [h2]
  · unfold blank quote
    simp only [Bool.or_eq_false_iff, decide_eq_false_iff_not]
    constructor
    · intro h; cases s with
      | nil => exact h3 rfl
      | cons x s => simp at h
    · intro h
      cases s with
      | nil => exact h3 rfl
      | cons x s =>
        cases s with
        | nil => simp at h; exact h4 (by rw [h])
        | cons y s => simp at h

theorem plain_mod (star : Text) (h : star = (chars! "star1") ∨ star = (chars! "star2")) (n : ℕ) : PlainVal (modName star n) := by
  have hq : modName star n = quote ((chars! "initial_") ++ star ++ (chars! "_step") ++ dec n ++ (chars! ".mod")) := by
    rcases h with rfl | rfl <;> simp [modName, quote]
  rw [hq]
  have e1 : '!' ∉ dec n := Verif.Jobs.not_mem_dec (by decide) n
  have e2 : '&' ∉ dec n := Verif.Jobs.not_mem_dec (by decide) n
  rcases h with rfl | rfl <;>
    exact plain_quote (by simp [e1]) (by simp [e2]) (by simp) (by simp)

theorem good_own {d : Dict Text} {k v : Text} (h : Good d) (hk : k ∈ own) (hv : PlainVal v) : Good (set k v d) := good_set h (own_plain k hk) hv

theorem good_switch {cols : List Text} {F : Finals} (h : ∀ t, Good (F t)) (t : Target) : Good (switch cols F t) := by
  cases t <;> unfold switch <;> dsimp only <;> try exact h _
  all_goals
    split
    · exact good_own (good_own (h _) (by decide +kernel) (by decide +kernel)) (by decide +kernel) (by decide +kernel)
    · exact h _

theorem good_loads {star : Text} (hs : star = (chars! "star1") ∨ star = (chars! "star2")) (is : List ℕ) {d : Dict Text} (h : Good d) :
    Good (is.foldl (fun d i => binaryLoads star i d) d) := by
  induction is generalizing d with
  | nil => exact h
  | cons i is ih =>
    rw [List.foldl_cons]
    apply ih
    unfold binaryLoads
    exact good_own (good_own (good_own h (by decide +kernel) (by decide +kernel)) (by decide +kernel) (by decide +kernel)) (by decide +kernel) (plain_mod _ hs _)

theorem good_formation {files : Text → Except Err (List Text)} {kd : Kind} {star : Text} (hs : star = (chars! "star1") ∨ star = (chars! "star2"))
    {zfix : Dict Text → Dict Text} {entries : Dict Val} {job : Dict Text} {s : List (Dict Text × Dict Text)} {j : Dict Text}
    (h : formation files kd star zfix entries job = .ok (s, j)) (hj : Good job) : Good j := by
  rcases formation_job h with ⟨_, _, rfl⟩ | ⟨_, _, rfl⟩
  · exact hj
  · exact good_loads hs _ hj

theorem good_outJob {star : Text} (hs : star = (chars! "star1") ∨ star = (chars! "star2")) (a b : Bool) {d : Dict Text} (h : Good d) : Good (outJob star a b d) := by
  have p1 : PlainVal ((chars! "'final_profile_") ++ star ++ (chars! ".data'")) := by rcases hs with rfl | rfl <;> decide +kernel
  have p2 : PlainVal ((chars! "'final_") ++ star ++ (chars! ".mod'")) := by rcases hs with rfl | rfl <;> decide +kernel
  cases a <;> cases b <;> simp only [outJob, if_true, if_false, Bool.false_eq_true] <;>
    repeat first
      | exact h
      | refine good_own ?_ (by decide +kernel) (by first | exact p1 | exact p2 | decide +kernel)

/-- A path or a number which can be written as a value. -/
def Writable (c : Cfg) (inlist1 inlist2 : Text) : Prop :=
  PlainVal c.interval ∧ PlainVal (quote inlist1) ∧ PlainVal (quote inlist2) ∧ (∀ z, c.zams1 = some z → PlainVal (quote z)) ∧ ∀ z, c.zams2 = some z → PlainVal (quote z)

theorem good_outControls {hh : Bool} {i : Text} {z : Option Text} (hi : PlainVal i) (hz : ∀ y, z = some y → PlainVal (quote y)) {d : Dict Text} (h : Good d) :
    Good (outControls hh i z d) := by
  have h1 : Good (set (chars! "history_interval") i (set (chars! "do_history_file") (if hh then (chars! ".true.") else (chars! ".false.")) d)) :=
    good_own (good_own h (by decide +kernel) (by cases hh <;> decide +kernel)) (by decide +kernel) hi
  cases z with
  | none => exact h1
  | some y => exact good_own h1 (by decide +kernel) (hz y rfl)

theorem good_fin {files : Text → Except Err (List Text)} {c : Cfg} {inl : Dict Val} {cols : List Text} {a b : Text} {o : Out}
    (h : construct files c inl cols a b = .ok o) (hw : Writable c a b) (t : Target) : Good (o.fin t) := by
  obtain ⟨F, j1, j2, hF, h1, h2, h3⟩ := construct_parts h
  have hgF : ∀ t, Good (F t) := by
    unfold binaryPart at hF
    cases hs : c.single with
    | true => rw [hs, if_pos rfl] at hF; cases hF; exact fun _ => good_nil
    | false =>
      rw [hs, if_neg (by decide)] at hF
      cases hl : layers files (fun _ => []) inl with
      | error e => rw [hl] at hF; cases hF
      | ok G =>
        rw [hl] at hF; cases hF
        have hG := good_layers hl (fun _ => good_nil)
        have hS := good_switch (cols := cols) hG
        intro t
        unfold inlistNames upd
        split
        · exact good_own (good_own (hS _) (by decide +kernel) hw.2.1) (by decide +kernel) hw.2.2.1
        · exact hS t
  have g1 := good_formation (.inl rfl) h1 (hgF _)
  have g2 := good_formation (.inr rfl) h2 (hgF _)
  have hu : ∀ t, Good (upd (upd F .star1Job j1) .star2Job j2 t) := by
    intro t
    unfold upd
    split
    · exact g2
    · split
      · exact g1
      · exact hgF t
  rw [h3]
  cases t <;> simp only [outputs]
  · split
    · exact good_own (hu _) (by decide +kernel) hw.1
    · exact good_own (good_own (hu _) (by decide +kernel) hw.1) (by decide +kernel) (by decide +kernel)
  · exact hu _
  · exact good_outJob (.inl rfl) _ _ (hu _)
  · exact good_outJob (.inr rfl) _ _ (hu _)
  · exact good_outControls hw.1 hw.2.2.2.1 (hu _)
  · exact good_outControls hw.1 hw.2.2.2.2 (hu _)

/-! A file written, as lines. -/

def lineItem (e : Text × Text) : Line := ⟨.put ('\t' :: (e.1 ++ [' '])) (' ' :: (e.2 ++ ['\n'])), none⟩

theorem lineItem_text (e : Text × Text) : (lineItem e).text = lineOf e := by simp [lineItem, Line.text, Item.body, lineOf]

theorem lineItem_ok {e : Text × Text} (hk : PlainKey e.1) (hv : PlainVal e.2) : (lineItem e).item.Ok := by
  obtain ⟨_, h1, h2, h3⟩ := hk
  obtain ⟨_, h4, h5, _⟩ := hv
  simp [lineItem, Item.Ok, h1, h2, h3, h4, h5]

theorem lineItem_parts (e : Text × Text) (hk : PlainKey e.1) (hv : PlainVal e.2) :
    strip ('\t' :: (e.1 ++ [' '])) = e.1 ∧ strip (' ' :: (e.2 ++ ['\n'])) = e.2 := by
  constructor
  · have := strip_pad (a := ['\t']) (b := [' ']) (s := e.1) (by decide) (by decide)
    simpa [hk.1] using this
  · have := strip_pad (a := [' ']) (b := ['\n']) (s := e.2) (by decide) (by decide)
    simpa [hv.1] using this

/-- The feet contain no assignments and no sections. -/
def foot (s : Text) : Bool := (clean s |> keep) == false

theorem fill_self {l : List (Text × Text)} (h : (l.map (·.1)).Nodup) : fill [] l = l := by
  have key : ∀ (l : List (Text × Text)) (d : Dict Text), ((d ++ l).map (·.1)).Nodup → fill d l = d ++ l := by
    intro l
    induction l with
    | nil => intro d _; simp [fill]
    | cons x l ih =>
      intro d hd
      have hx : x.1 ∉ d.map (·.1) := by
        simp only [List.map_append, List.map_cons] at hd
        have := (List.nodup_append.mp hd).2.2
        intro hm
        exact this x.1 hm x.1 List.mem_cons_self rfl
      have hset : set x.1 x.2 d = d ++ [x] := by
        clear ih hd
        induction d with
        | nil => rfl
        | cons y d ih =>
          simp only [List.map_cons, List.mem_cons, not_or] at hx
          simp [set, Ne.symm hx.1, ih hx.2]
      rw [show fill d (x :: l) = fill (set x.1 x.2 d) l from rfl, hset, ih (d ++ [x]) (by simpa using hd)]
      simp
  simpa using key l [] (by simpa using h)

theorem inSection_append (sec : Text) (a b : List Item) (cur : Option Text) :
    ∃ cur', inSection sec cur (a ++ b) = inSection sec cur a ++ inSection sec cur' b ∧
      (a.any Item.isHead = false → cur' = cur) := by
  induction a generalizing cur with
  | nil => exact ⟨cur, rfl, fun _ => rfl⟩
  | cons i a ih =>
    cases i with
    | head s =>
      obtain ⟨c, h1, _⟩ := ih (some (strip s))
      exact ⟨c, h1, fun h => by simp [Item.isHead] at h⟩
    | put x y =>
      obtain ⟨c, h1, h2⟩ := ih cur
      refine ⟨c, ?_, fun h => h2 (by simpa [Item.isHead] using h)⟩
      simp only [List.cons_append, inSection, h1]
      split <;> simp
    | other s =>
      obtain ⟨c, h1, h2⟩ := ih cur
      exact ⟨c, h1, fun h => h2 (by simpa [Item.isHead] using h)⟩

theorem inSection_put {sec : Text} {cur : Option Text} {d : Dict Text} (h : ∀ e ∈ d, PlainKey e.1 ∧ PlainVal e.2) :
    inSection sec cur (d.map fun e => (lineItem e).item) = if cur = some sec then d else [] := by
  induction d with
  | nil => cases Decidable.em (cur = some sec) <;> simp [inSection]
  | cons e d ih =>
    have ih := ih fun e he => h e (List.mem_cons_of_mem _ he)
    obtain ⟨hk, hv⟩ := h e List.mem_cons_self
    obtain ⟨h1, h2⟩ := lineItem_parts e hk hv
    simp only [List.map_cons, lineItem, inSection] at ih ⊢
    rw [h1, h2, ih]
    by_cases hc : cur = some sec
    · simp [hc]
    · simp [hc]

theorem inSection_other {sec : Text} {cur : Option Text} {l : List Item} (h : ∀ i ∈ l, ∃ s, i = .other s) : inSection sec cur l = [] := by
  induction l with
  | nil => rfl
  | cons i l ih =>
    obtain ⟨s, rfl⟩ := h i List.mem_cons_self
    exact ih fun i hi => h i (List.mem_cons_of_mem _ hi)

/-- The lines of a file with two sections as the specification has them. -/
def fileLines (sec1 sec2 : Text) (f1 f2 : List Line) (d1 d2 : Dict Text) : List Line :=
  [⟨.head (sec1 ++ ['\n']), none⟩, ⟨.other ['\n'], none⟩] ++ d1.map lineItem ++ f1 ++
    [⟨.head (sec2 ++ ['\n']), none⟩, ⟨.other ['\n'], none⟩] ++ d2.map lineItem ++ f2

theorem file_told {sec1 sec2 : Text} {f1 f2 : List Line} {d1 d2 : Dict Text} (h1 : Good d1) (h2 : Good d2)
    (hf1 : ∀ x ∈ f1, ∃ s, x.item = .other s) (hf2 : ∀ x ∈ f2, ∃ s, x.item = .other s) (hs1 : strip (sec1 ++ ['\n']) = sec1)
    (hs2 : strip (sec2 ++ ['\n']) = sec2) (hne : sec1 ≠ sec2) :
    told sec1 ((fileLines sec1 sec2 f1 f2 d1 d2).map (·.item)) = d1 ∧ told sec2 ((fileLines sec1 sec2 f1 f2 d1 d2).map (·.item)) = d2 := by
  have hf1' : ∀ i ∈ f1.map (·.item), ∃ s, i = .other s := by
    intro i hi; obtain ⟨x, hx, rfl⟩ := List.mem_map.mp hi; exact hf1 x hx
  have hf2' : ∀ i ∈ f2.map (·.item), ∃ s, i = .other s := by
    intro i hi; obtain ⟨x, hx, rfl⟩ := List.mem_map.mp hi; exact hf2 x hx
  have nh : ∀ {l : List Item}, (∀ i ∈ l, ∃ s, i = .other s) → l.any Item.isHead = false := by
    intro l hl
    rw [List.any_eq_false]
    intro i hi
    obtain ⟨s, rfl⟩ := hl i hi
    simp [Item.isHead]
  have nd : ∀ d : Dict Text, (d.map fun e => (lineItem e).item).any Item.isHead = false := by
    intro d
    rw [List.any_eq_false]
    intro i hi
    obtain ⟨e, _, rfl⟩ := List.mem_map.mp hi
    simp [Item.isHead, lineItem]
  have hmap : (fileLines sec1 sec2 f1 f2 d1 d2).map (·.item) =
      .head (sec1 ++ ['\n']) :: .other ['\n'] :: ((d1.map fun e => (lineItem e).item) ++ (f1.map (·.item) ++
        (.head (sec2 ++ ['\n']) :: .other ['\n'] :: ((d2.map fun e => (lineItem e).item) ++ f2.map (·.item))))) := by
    simp [fileLines, Function.comp_def]
  have hany : ((fileLines sec1 sec2 f1 f2 d1 d2).map (·.item)).any Item.isHead = true := by rw [hmap]; simp [Item.isHead]
  have main : ∀ sec, inSection sec none ((fileLines sec1 sec2 f1 f2 d1 d2).map (·.item)) =
      (if sec1 = sec then d1 else []) ++ (if sec2 = sec then d2 else []) := by
    intro sec
    rw [hmap]
    simp only [inSection, hs1]
    obtain ⟨c1, e1, q1⟩ := inSection_append sec (d1.map fun e => (lineItem e).item) (f1.map (·.item) ++
        (.head (sec2 ++ ['\n']) :: .other ['\n'] :: ((d2.map fun e => (lineItem e).item) ++ f2.map (·.item)))) (some sec1)
    rw [e1, q1 (nd d1), inSection_put h1.2]
    obtain ⟨c2, e2, q2⟩ := inSection_append sec (f1.map (·.item))
        (.head (sec2 ++ ['\n']) :: .other ['\n'] :: ((d2.map fun e => (lineItem e).item) ++ f2.map (·.item))) (some sec1)
    rw [e2, q2 (nh hf1'), inSection_other hf1']
    simp only [inSection, hs2, List.nil_append]
    obtain ⟨c3, e3, q3⟩ := inSection_append sec (d2.map fun e => (lineItem e).item) (f2.map (·.item)) (some sec2)
    rw [e3, q3 (nd d2), inSection_put h2.2, inSection_other hf2']
    simp
  constructor
  · unfold told; rw [if_pos hany, main, if_pos rfl, if_neg (Ne.symm hne), List.append_nil]
  · unfold told; rw [if_pos hany, main, if_neg hne, if_pos rfl, List.nil_append]

theorem full_good {d : Dict Text} (h : Good d) : full d = d := by
  unfold full
  rw [List.filter_eq_self]
  intro e he
  simp [(h.2 e he).2.2.2.2]

theorem file_read {sec1 sec2 : Text} {f1 f2 : List Line} {d1 d2 : Dict Text} (h1 : Good d1) (h2 : Good d2)
    (hf1 : ∀ x ∈ f1, ∃ s, x.item = .other s ∧ x.item.Ok) (hf2 : ∀ x ∈ f2, ∃ s, x.item = .other s ∧ x.item.Ok)
    (hs1 : strip (sec1 ++ ['\n']) = sec1) (hs2 : strip (sec2 ++ ['\n']) = sec2) (hne : sec1 ≠ sec2)
    (ha1 : (Item.head (sec1 ++ ['\n'])).Ok) (ha2 : (Item.head (sec2 ++ ['\n'])).Ok) :
    readSection sec1 ((fileLines sec1 sec2 f1 f2 d1 d2).map Line.text) = .ok d1 ∧
    readSection sec2 ((fileLines sec1 sec2 f1 f2 d1 d2).map Line.text) = .ok d2 := by
  have hok : ∀ x ∈ fileLines sec1 sec2 f1 f2 d1 d2, x.item.Ok := by
    intro x hx
    have hnl : (Item.other ['\n']).Ok := by decide
    simp only [fileLines, List.mem_append, List.mem_cons, List.not_mem_nil, or_false, List.mem_map] at hx
    rcases hx with ((((hx | hx) | hx) | hx) | hx) | hx
    · rcases hx with rfl | rfl
      · exact ha1
      · exact hnl
    · obtain ⟨e, he, rfl⟩ := hx; exact lineItem_ok (h1.2 e he).1 (h1.2 e he).2
    · obtain ⟨s, _, h⟩ := hf1 x hx; exact h
    · rcases hx with rfl | rfl
      · exact ha2
      · exact hnl
    · obtain ⟨e, he, rfl⟩ := hx; exact lineItem_ok (h2.2 e he).1 (h2.2 e he).2
    · obtain ⟨s, _, h⟩ := hf2 x hx; exact h
  have hled : ∀ pre a b post, (fileLines sec1 sec2 f1 f2 d1 d2).map (·.item) = pre ++ .put a b :: post → blank (strip b) = false → pre.any Item.isHead = true := by
    intro pre a b post he _
    cases pre with
    | nil => simp [fileLines] at he
    | cons i pre =>
      simp only [fileLines, List.cons_append, List.map_cons, List.cons.injEq] at he
      simp [← he.1, Item.isHead]
  have ht := file_told h1 h2 (fun x hx => (hf1 x hx).imp fun _ h => h.1) (fun x hx => (hf2 x hx).imp fun _ h => h.1) hs1 hs2 hne
  have u1 : Usable sec1 ((fileLines sec1 sec2 f1 f2 d1 d2).map (·.item)) := .inr ⟨⟨sec1 ++ ['\n'], by simp [fileLines], hs1⟩, hled⟩
  have u2 : Usable sec2 ((fileLines sec1 sec2 f1 f2 d1 d2).map (·.item)) := .inr ⟨⟨sec2 ++ ['\n'], by simp [fileLines], hs2⟩, hled⟩
  rw [C103_read_all sec1 hok u1, C103_read_all sec2 hok u2, ht.1, ht.2, full_good h1, full_good h2, fill_self h1.1, fill_self h2.1]
  exact ⟨rfl, rfl⟩

theorem fileLines_text (sec1 sec2 : Text) (f1 f2 : List Line) (d1 d2 : Dict Text) :
    (fileLines sec1 sec2 f1 f2 d1 d2).map Line.text = render sec1 sec2 (f1.map Line.text) (f2.map Line.text) d1 d2 := by
  have : d1.map (Line.text ∘ lineItem) = d1.map lineOf := List.map_congr_left fun e _ => lineItem_text e
  have h2 : d2.map (Line.text ∘ lineItem) = d2.map lineOf := List.map_congr_left fun e _ => lineItem_text e
  simp [fileLines, render, this, h2, Line.text, Item.body]

def nl : Line := ⟨.other ['\n'], none⟩
def slash (note : Text) : Line := ⟨.other (chars! "/ "), some (note ++ ['\n'])⟩

/-- **C103.** The inlists written by the set-up are read back, when a grid point is run, as the six dictionaries they were
written from. -/
theorem C103_read_back {files : Text → Except Err (List Text)} {c : Cfg} {inl : Dict Val} {cols : List Text} {a b : Text} {o : Out}
    (h : construct files c inl cols a b = .ok o) (hw : Writable c a b) (t : Target) : readBack o.fin t = .ok (o.fin t) := by
  have hg := good_fin h hw
  have p := file_read (sec1 := (chars! "&binary_controls")) (sec2 := (chars! "&binary_job"))
    (f1 := [nl, slash (chars! " end of binary_controls namelist"), nl]) (f2 := [nl, slash (chars! " end of binary_job namelist"), ⟨.other (chars! "                "), none⟩])
    (hg .binControls) (hg .binJob) (by simp [nl, slash]; decide) (by simp [nl, slash]; decide) (by decide +kernel) (by decide +kernel) (by decide +kernel) (by decide +kernel) (by decide +kernel)
  have s1 := file_read (sec1 := (chars! "&controls")) (sec2 := (chars! "&star_job"))
    (f1 := [nl, nl, nl, slash (chars! " end of star1_controls namelist"), nl]) (f2 := [nl, slash (chars! " end of star1_job namelist"), nl])
    (hg .star1Controls) (hg .star1Job) (by simp [nl, slash]; decide) (by simp [nl, slash]; decide) (by decide +kernel) (by decide +kernel) (by decide +kernel) (by decide +kernel) (by decide +kernel)
  have s2 := file_read (sec1 := (chars! "&controls")) (sec2 := (chars! "&star_job"))
    (f1 := [nl, nl, nl, slash (chars! " end of star2_controls namelist"), nl]) (f2 := [nl, slash (chars! " end of star2_job namelist"), nl])
    (hg .star2Controls) (hg .star2Job) (by simp [nl, slash]; decide) (by simp [nl, slash]; decide) (by decide +kernel) (by decide +kernel) (by decide +kernel) (by decide +kernel) (by decide +kernel)
  rw [fileLines_text] at p s1 s2
  cases t
  · exact p.1
  · exact p.2
  · exact s1.2
  · exact s2.2
  · exact s1.1
  · exact s2.1

/-- The columns of the grid which a run takes from the files: those of the set-up and those the set-up itself sets. -/
theorem C103_columns_partial {files : Text → Except Err (List Text)} {c : Cfg} {inl : Dict Val} {cols : List Text} {a b : Text} {o : Out} {G : Finals}
    (hs : c.single = false) (hl : layers files (fun _ => []) inl = .ok G) (h : construct files c inl cols a b = .ok o)
    (hc : ∀ k ∈ cols, k ∉ own) (t : Target) : columnsIn cols (o.fin t) = columnsIn cols (G t) := by
  obtain ⟨F, j1, j2, hF, h1, h2, h3⟩ := construct_parts h
  unfold binaryPart at hF
  rw [hs, hl] at hF
  have hF : F = inlistNames a b (switch cols G) := by cases hF; rfl
  unfold columnsIn
  apply List.filter_congr
  intro k hk
  have hp := hc k hk
  rw [h3, get_outputs hp]
  have key : get k (upd (upd F .star1Job j1) .star2Job j2 t) = get k (F t) := by
    unfold upd
    by_cases e2 : t = .star2Job
    · rw [if_pos e2, get_formation hp h2, e2]
    · rw [if_neg e2]
      by_cases e1 : t = .star1Job
      · rw [if_pos e1, get_formation hp h1, e1]
      · rw [if_neg e1]
  rw [key, hF, get_names hp, get_switch hp]

/-- A parameter with a `1` only at its end can come from the replacement of `num_x_ctrls` only at that end. -/
theorem repl_prefix (w r : Text) (h1 : '1' ∉ w) (k : Text) (h : Verif.Channel.repl (chars! "num_x_ctrls") (chars! "1") 0 k = w ++ r) : w <+: k := by
  induction w generalizing k with
  | nil => exact List.nil_prefix
  | cons c w ih =>
    simp only [List.mem_cons, not_or] at h1
    cases k with
    | nil => simp [Verif.Channel.repl] at h
    | cons x k =>
      unfold Verif.Channel.repl at h
      split at h
      · simp only [List.cons_append, List.nil_append, List.cons.injEq] at h
        exact absurd h.1 h1.1
      · simp only [List.cons_append, List.cons.injEq] at h
        obtain ⟨t, ht⟩ := ih h1.2 k h.2
        exact ⟨t, by rw [← ht, h.1]; rfl⟩

theorem rename_extra (ctrl : Bool) (w : Text) (h1 : '1' ∉ w) (hw : (chars! "read_extra") <:+: w) (k : Text) (hk : skip k = false) : rename ctrl k ≠ w ++ ['1'] := by
  intro h
  have hin : (chars! "read_extra") <:+: k := by
    unfold rename at h
    split at h
    · exact hw.trans (repl_prefix w ['1'] h1 k h).isInfix
    · rw [h]; exact hw.trans (List.infix_append' [] w ['1'])
  unfold skip at hk
  simp [hin] at hk

/-- **C103.** In a grid whose columns are not parameters which the set-up itself sets, MESA is told to read the file with
the values of the grid point exactly for those stars and kinds for which a run writes such a file. -/
theorem C103_extra {files : Text → Except Err (List Text)} {c : Cfg} {inl : Dict Val} {cols : List Text} {a b : Text} {o : Out}
    (hs : c.single = false) (h : construct files c inl cols a b = .ok o) (hc : ∀ k ∈ cols, k ∉ own) :
    (get (chars! "read_extra_controls_inlist1") (o.fin .star1Controls) = some (chars! ".true.") ↔ columnsIn cols (o.fin .star1Controls) ≠ []) ∧
    (get (chars! "read_extra_controls_inlist1") (o.fin .star2Controls) = some (chars! ".true.") ↔ columnsIn cols (o.fin .star2Controls) ≠ []) ∧
    (get (chars! "read_extra_star_job_inlist1") (o.fin .star1Job) = some (chars! ".true.") ↔ columnsIn cols (o.fin .star1Job) ≠ []) ∧
    (get (chars! "read_extra_star_job_inlist1") (o.fin .star2Job) = some (chars! ".true.") ↔ columnsIn cols (o.fin .star2Job) ≠ []) := by
  have hparts := construct_parts h
  obtain ⟨F, j1, j2, hF, h1, h2, h3⟩ := hparts
  unfold binaryPart at hF
  rw [hs, if_neg (by decide)] at hF
  cases hl : layers files (fun _ => []) inl with
  | error e => rw [hl] at hF; cases hF
  | ok G =>
    rw [hl] at hF
    have hF : F = inlistNames a b (switch cols G) := by cases hF; rfl
    have hG : ∀ t, get (chars! "read_extra_controls_inlist1") (G t) = none ∧ get (chars! "read_extra_star_job_inlist1") (G t) = none := fun t =>
      ⟨layers_skip hl (by decide +kernel) (rename_extra _ (chars! "read_extra_controls_inlist") (by decide +kernel) (by decide +kernel)),
       layers_skip hl (by decide +kernel) (rename_extra _ (chars! "read_extra_star_job_inlist") (by decide +kernel) (by decide +kernel))⟩
    have hsw := C103_switch cols G hG
    have hcol := C103_columns_partial hs hl h hc
    have hcn : ∀ t, columnsIn cols (G t) ≠ [] ↔ ∃ k ∈ cols, (get k (G t)).isSome = true := by
      intro t
      unfold columnsIn
      rw [Ne, List.filter_eq_nil_iff]
      push Not
      rfl
    rw [hcol, hcol, hcol, hcol, hcn, hcn, hcn, hcn]
    have ctl : ∀ hh i z d, get (chars! "read_extra_controls_inlist1") (outControls hh i z d) = get (chars! "read_extra_controls_inlist1") d := by
      intro hh i z d
      have n1 : (chars! "read_extra_controls_inlist1") ≠ (chars! "history_interval") := by decide +kernel
      have n2 : (chars! "read_extra_controls_inlist1") ≠ (chars! "zams_filename") := by decide +kernel
      have n3 : (chars! "read_extra_controls_inlist1") ≠ (chars! "do_history_file") := by decide +kernel
      cases z <;> simp only [outControls, get_set, n1, n2, n3, if_false]
    have job : ∀ star p m d, get (chars! "read_extra_star_job_inlist1") (outJob star p m d) = get (chars! "read_extra_star_job_inlist1") d := by
      intro star p m d
      have n1 : (chars! "read_extra_star_job_inlist1") ≠ (chars! "save_model_filename") := by decide +kernel
      have n2 : (chars! "read_extra_star_job_inlist1") ≠ (chars! "save_model_when_terminate") := by decide +kernel
      have n3 : (chars! "read_extra_star_job_inlist1") ≠ (chars! "filename_for_profile_when_terminate") := by decide +kernel
      have n4 : (chars! "read_extra_star_job_inlist1") ≠ (chars! "write_profile_when_terminate") := by decide +kernel
      cases p <;> cases m <;> simp only [outJob, if_true, Bool.false_eq_true, if_false, get_set, n1, n2, n3, n4]
    have loads : ∀ star (is : List ℕ) d, get (chars! "read_extra_star_job_inlist1") (is.foldl (fun d i => binaryLoads star i d) d) = get (chars! "read_extra_star_job_inlist1") d := by
      intro star is
      have n1 : (chars! "read_extra_star_job_inlist1") ≠ (chars! "saved_model_name") := by decide +kernel
      have n2 : (chars! "read_extra_star_job_inlist1") ≠ (chars! "load_saved_model") := by decide +kernel
      have n3 : (chars! "read_extra_star_job_inlist1") ≠ (chars! "create_pre_main_sequence_model") := by decide +kernel
      induction is with
      | nil => intro d; rfl
      | cons i is ih => intro d; rw [List.foldl_cons, ih]; simp only [binaryLoads, get_set, n1, n2, n3, if_false]
    have form : ∀ {kd star zfix entries jb s j}, formation files kd star zfix entries jb = .ok (s, j) →
        get (chars! "read_extra_star_job_inlist1") j = get (chars! "read_extra_star_job_inlist1") jb := by
      intro kd star zfix entries jb s j hh
      rcases formation_job hh with ⟨_, _, rfl⟩ | ⟨_, _, rfl⟩
      · rfl
      · exact loads _ _ _
    have f1 : o.fin .star1Controls = outControls c.history1 c.interval c.zams1 (switch cols G .star1Controls) := by rw [h3, hF]; rfl
    have f2 : o.fin .star2Controls = outControls c.history2 c.interval c.zams2 (switch cols G .star2Controls) := by rw [h3, hF]; rfl
    have f3 : o.fin .star1Job = outJob (chars! "star1") c.profile1 c.model1 j1 := by rw [h3]; rfl
    have f4 : o.fin .star2Job = outJob (chars! "star2") c.profile2 c.model2 j2 := by rw [h3]; rfl
    have g3 : F .star1Job = switch cols G .star1Job := by rw [hF]; rfl
    have g4 : F .star2Job = switch cols G .star2Job := by rw [hF]; rfl
    rw [f1, f2, f3, f4, ctl, ctl, job, job, form h1, form h2, g3, g4]
    exact hsw

/-- **C103 (violated).** A column for a parameter which only the set-up sets: a run writes the file with its value, but
MESA is not told to read that file. -/
theorem C103_columns_violated :
    (match construct (fun _ => .ok []) exCfg [((chars! "star1_controls_user"), .path (chars! "f"))] [(chars! "do_history_file")] [] [] with
      | .error _ => none
      | .ok o => some (columnsIn [(chars! "do_history_file")] (o.fin .star1Controls), get (chars! "read_extra_controls_inlist1") (o.fin .star1Controls))) =
      some ([(chars! "do_history_file")], none) := by decide +kernel

/-! ## Cases -/

/-- The inlist of the user of the example is readable, and the set-up with it alone uses its value. -/
example : Readable exDocs [((chars! "star1_controls_user"), .path (chars! "mine"))] := by
  intro e he t ht _
  simp only [List.mem_cons, List.not_mem_nil, or_false] at he
  subst he
  have ht' : t = .star1Controls := Option.some.inj (ht.symm.trans (by decide +kernel))
  subst ht'
  refine ⟨(chars! "mine"), _, rfl, rfl, by decide +kernel, .inr ⟨⟨(chars! "&controls"), by decide +kernel, by decide +kernel⟩, ?_⟩⟩
  intro pre a b post he' _
  cases pre with
  | nil => simp at he'
  | cons x pre => simp only [List.map_cons, List.cons_append, List.cons.injEq] at he'; simp [← he'.1, Item.isHead]

example : star1Value (chars! "varcontrol_target")
    (construct (opening exDocs) exCfg [((chars! "star1_controls_user"), .path (chars! "mine"))] [] [] []) = some (chars! "1d-4") := by decide +kernel

example : Writable exCfg (chars! "/w/inlist1") (chars! "/w/inlist2") := by
  refine ⟨by decide +kernel, by decide +kernel, by decide +kernel, ?_, ?_⟩ <;> (intro z hz; exact absurd hz (by simp [exCfg]))

/-- The part of a name that tells which file it is for. -/
def Target.word : Target → Text
  | .binControls => (chars! "binary_controls")
  | .binJob => (chars! "binary_job")
  | .star1Job => (chars! "star1_job")
  | .star2Job => (chars! "star2_job")
  | .star1Controls => (chars! "star1_controls")
  | .star2Controls => (chars! "star2_controls")

/-- An entry that names one of the files is for that file. -/
theorem C103_named_file (t : Target) (k : Text) (h : t.word <:+: k) (h' : ∀ t', t' ≠ t → ¬ t'.word <:+: k) : target k = some t := by
  have n1 := h' .binControls
  have n2 := h' .binJob
  have n3 := h' .star1Job
  have n4 := h' .star2Job
  have n5 := h' .star1Controls
  have n6 := h' .star2Controls
  cases t <;> simp only [Target.word, ne_eq, not_true_eq_false, false_implies, reduceCtorEq, not_false_eq_true, true_implies] at h n1 n2 n3 n4 n5 n6 <;>
    simp only [target, h, n1, n2, n3, n4, n5, n6, if_true, if_false]

/-- The names of further inlists are not taken over from a file of jobs or of controls of the binary. -/
theorem C103_no_inlists (fin d : Dict Text) (k : Text) (h : (chars! "inlist") <:+: k ∨ (chars! "read_extra") <:+: k) :
    get k (layer false fin d) = get k fin := by
  unfold layer
  induction d generalizing fin with
  | nil => rfl
  | cons e d ih =>
    rw [List.foldl_cons, ih]
    split_ifs with hs
    · rfl
    · rw [get_set, if_neg]
      intro e'
      apply hs
      have : rename false e.1 = e.1 := by simp [rename]
      rw [e', this] at h
      unfold skip
      rcases h with h | h <;> simp [h]

/-- C103.  The settings that make the steps of the formation of the stars: those of the formation of the star, or for a single star those of star 1
itself, without those that are not set; none if the formation is replaced by a model at the zero-age main sequence (for star 1 of a pair, and star 2). -/
theorem C103_formation_entries (c : Cfg) (inl : Dict Val) (e : Text × Val) :
    (e ∈ entries1 c inl ↔ e ∈ inl ∧ e.2 ≠ .none ∧ (c.single = true ∨ c.zams1 = none) ∧
      if c.single = true then (chars! "star1_job") <:+: e.1 ∨ (chars! "star1_controls") <:+: e.1 else (chars! "star1_formation") <:+: e.1) ∧
    (e ∈ entries2 c inl ↔ e ∈ inl ∧ e.2 ≠ .none ∧ c.zams2 = none ∧ (chars! "star2_formation") <:+: e.1) := by
  constructor
  · unfold entries1
    cases hs : c.single with
    | true =>
      rw [if_neg (by simp), if_pos rfl, List.mem_filter]
      simp only [Bool.and_eq_true, Bool.or_eq_true, decide_eq_true_eq, true_or, true_and, if_true]
      tauto
    | false =>
      cases hz : c.zams1 with
      | some z => rw [if_pos ⟨rfl, rfl⟩]; simp
      | none =>
        rw [if_neg (by simp), if_neg (by decide), List.mem_filter]
        simp only [Bool.and_eq_true, decide_eq_true_eq, Bool.false_eq_true, or_true, true_and, if_false]
        tauto
  · unfold entries2
    cases hz : c.zams2 with
    | some z => rw [if_pos (by rfl)]; simp
    | none =>
      rw [if_neg (by simp), List.mem_filter]
      simp only [Bool.and_eq_true, decide_eq_true_eq, true_and]
      tauto

end Verif.Inlist
