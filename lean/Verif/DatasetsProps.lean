import Verif.Datasets

/-!
Property theorems for C143: the published data sets can be listed and obtained.
-/
namespace Verif.Datasets

open Verif.Download

/-- What a member of the collection needs to be obtained: a file and a checksum. -/
def Obtainable (coll : List (String × Entry)) (n : String) : Prop := ∃ u s, coll.lookup n = some ⟨some u, some s⟩

instance (coll : List (String × Entry)) (n : String) : Decidable (Obtainable coll n) :=
  match h : coll.lookup n with
  | some ⟨some u, some s⟩ => isTrue ⟨u, s, h⟩
  | some ⟨none, _⟩ => isFalse fun ⟨_, _, h'⟩ => by rw [h] at h'; cases h'
  | some ⟨some _, none⟩ => isFalse fun ⟨_, _, h'⟩ => by rw [h] at h'; cases h'
  | none => isFalse fun ⟨_, _, h'⟩ => by rw [h] at h'; cases h'

/-- C143.  Every member of every complete set is published with a file and a checksum, no member occurs twice in a set. -/
theorem C143_sets : ∀ s ∈ complete, s.2.Nodup ∧ ∀ n ∈ s.2, Obtainable collection n := by
  decide +kernel

/-- C143.  Different data sets have different files and different checksums, and no name is used twice. -/
theorem C143_distinct : fileNames.Nodup ∧ (published.filterMap fun e => e.2.2).Nodup ∧ (published.map Prod.fst).Nodup ∧ (complete.map Prod.fst).Nodup := by
  decide +kernel

/-- C143.  The complete set of a metallicity is the auxiliary data and its grids; the set of all metallicities consists of all of these. -/
theorem C143_metallicities :
    (∀ z ∈ ["2", "1", "0.45", "0.2", "0.1", "0.01", "1e-3", "1e-4"], complete.lookup ("DR2_" ++ z ++ "Zsun") = some ["auxiliary", "DR2_grids_" ++ z ++ "Zsun"]) ∧
    complete.lookup "DR2" = some ("auxiliary" :: ["2", "1", "0.45", "0.2", "0.1", "0.01", "1e-3", "1e-4"].map fun z => "DR2_grids_" ++ z ++ "Zsun") := by
  decide +kernel

/-! ### downloads without faults -/

/-- Nothing fails and the server sends what was published. -/
structure Fine (w : World) : Prop where
  faults : ∀ n, w.faults n = ⟨false, false, false, false⟩
  server : ∀ n u s, w.collection.lookup n = some ⟨some u, some s⟩ → w.server u = ⟨s, true⟩

theorem one_ok (w : World) (hw : Fine w) (c : Bool) (d : Disk) (n : String) (u s : ℕ) (hl : w.collection.lookup n = some ⟨some u, some s⟩)
    (hd : d.isDir = true) (hf : d.files u = none) : downloadOne w c d n = ({ d with extracted := d.extracted ++ [⟨s, true⟩] }, none) := by
  unfold downloadOne
  rw [hl]
  dsimp only
  rw [hd, hf, hw.faults n, hw.server n u s hl]
  have e : (d.put u (some ⟨s, true⟩)).files u = some ⟨s, true⟩ := by simp [Disk.put]
  have p : ∀ (b : Bool), (if b = true then md5Block (d.put u (some ⟨s, true⟩)) ⟨false, false, false, false⟩ u ⟨s, true⟩ s else d.put u (some ⟨s, true⟩)) = d.put u (some ⟨s, true⟩) := by
    intro b
    unfold md5Block
    cases b <;> simp
  simp only [Bool.not_true, Bool.false_eq_true, if_false, Option.isSome_none, Option.getD_some, p]
  unfold extract
  rw [e]
  simp only [Bool.not_true, Bool.or_self, Bool.false_eq_true, if_false]
  have q : ((d.put u (some ⟨s, true⟩)).put u none).files = d.files := by
    funext v
    by_cases hv : v = u
    · subst hv; simp [Disk.put, hf]
    · simp [Disk.put, hv]
  have : ({ (d.put u (some ⟨s, true⟩)).put u none with extracted := (d.put u (some ⟨s, true⟩)).extracted ++ [⟨s, true⟩] } : Disk)
      = { d with extracted := d.extracted ++ [⟨s, true⟩] } := by
    rw [show ({ d with extracted := d.extracted ++ [⟨s, true⟩] } : Disk) = ⟨d.isDir, d.files, d.extracted ++ [⟨s, true⟩]⟩ from rfl, ← q]
    rfl
  exact Prod.ext (this.trans (by rw [hd])) rfl

/-- The checksums of the members of a set. -/
def sums (coll : List (String × Entry)) (ns : List String) : List ℕ := ns.filterMap fun n => (coll.lookup n).bind Entry.md5

theorem all_ok (w : World) (hw : Fine w) (c : Bool) : ∀ (ns : List String) (d : Disk), (∀ n ∈ ns, Obtainable w.collection n) → d.isDir = true → (∀ u, d.files u = none) →
    downloadAll w c d ns = ({ d with extracted := d.extracted ++ (sums w.collection ns).map fun s => ⟨s, true⟩ }, none) := by
  intro ns
  induction ns with
  | nil => intro d _ _ _; simp [downloadAll, sums]
  | cons n ns ih =>
    intro d ho hd hf
    obtain ⟨u, s, hl⟩ := ho n (by simp)
    unfold downloadAll
    rw [one_ok w hw c d n u s hl hd (hf u)]
    dsimp only
    have := ih { d with extracted := d.extracted ++ [⟨s, true⟩] } (fun k hk => ho k (by simp [hk])) hd hf
    rw [this]
    simp [sums, hl]

/-- C143.  With a working connection every complete set can be obtained: exactly its archives are unpacked, in their order, and none is left
behind, so that the same can be done again. -/
theorem C143_obtained (w : World) (hc : w.collection = collection) (hs : w.sets = complete) (hw : Fine w) (c : Bool) (d : Disk) (hd : d.isDir = true)
    (hf : ∀ u, d.files u = none) (name : String) (ns : List String) (h : (name, ns) ∈ complete) :
    dataDownload w c d name = ({ d with extracted := d.extracted ++ (sums collection ns).map fun s => ⟨s, true⟩ }, none) ∧ (sums collection ns).length = ns.length := by
  have ho := (C143_sets _ h).2
  have hl : complete.lookup name = some ns := by
    have : ∀ s ∈ complete, complete.lookup s.1 = some s.2 := by decide +kernel
    exact this _ h
  constructor
  · unfold dataDownload
    rw [hs, hl]
    dsimp only
    rw [all_ok w hw c ns d (by rw [hc]; exact ho) hd hf, hc]
  · clear h hl
    have : ∀ l : List String, (∀ n ∈ l, Obtainable collection n) → (sums collection l).length = l.length := by
      intro l
      induction l with
      | nil => intro _; rfl
      | cons n l ih =>
        intro hn
        obtain ⟨u, s, e⟩ := hn n (by simp)
        have := ih fun k hk => hn k (by simp [hk])
        unfold sums at this ⊢
        rw [List.filterMap_cons, e]
        simpa using this
    exact this ns ho

/-- C143.  Members that can not be obtained stop a download: what came before is kept, nothing after it is tried. -/
theorem C143_stops (w : World) (c : Bool) (d d' : Disk) (e : Err) : ∀ (before : List String) (n : String) (after : List String) (d0 : Disk),
    downloadAll w c d0 before = (d, none) → downloadOne w c d n = (d', some e) → downloadAll w c d0 (before ++ n :: after) = (d', some e) := by
  intro before
  induction before with
  | nil =>
    intro n after d0 h1 h2
    simp only [downloadAll, Prod.mk.injEq, and_true] at h1
    subst h1
    simp only [List.nil_append, downloadAll, h2]
  | cons b before ih =>
    intro n after d0 h1 h2
    rw [List.cons_append]
    unfold downloadAll at h1 ⊢
    cases hb : downloadOne w c d0 b with
    | mk d1 o =>
      rw [hb] at h1
      cases o with
      | none => exact ih n after d1 h1 h2
      | some x => simp only [Prod.mk.injEq, reduceCtorEq, and_false] at h1

/-- The default set of the download is a complete set. -/
theorem C143_default : (complete.lookup "DR2").isSome = true := by decide +kernel

/-- C143 fails for the default of the download of one data set: it is the name of a complete set, not of a data set, and always a `KeyError`. -/
theorem C143_single_default_violated (w : World) (hc : w.collection = collection) (c : Bool) (d : Disk) : downloadOne w c d "DR2_1Zsun" = (d, some .key) := by
  have : collection.lookup "DR2_1Zsun" = none := by
    have h : (collection.lookup "DR2_1Zsun").isNone = true := by decide +kernel
    exact Option.isNone_iff_eq_none.1 h
  unfold downloadOne
  rw [hc, this]

/-! ### the command -/

theorem names_collection : collection.map Prod.fst = published.map Prod.fst := by
  unfold collection
  rw [List.map_map]
  rfl

/-- C143.  The command refuses exactly the names that are neither a complete set nor a data set, also if they are not needed. -/
theorem C143_command (w : World) (d : Disk) (a : Args) :
    command w d a = .refused ↔ a.dataset.getD "DR2" ∉ w.sets.map Prod.fst ∧ a.dataset.getD "DR2" ∉ w.collection.map Prod.fst := by
  unfold command
  dsimp only
  by_cases h : a.dataset.getD "DR2" ∉ w.sets.map Prod.fst ++ w.collection.map Prod.fst
  · rw [if_pos h]
    simpa [List.mem_append, not_or] using h
  · rw [if_neg h]
    constructor
    · intro h'
      cases hl : a.listed with
      | none => rw [hl] at h'; cases h'
      | some k => rw [hl] at h'; cases k <;> cases h'
    · intro h'
      exact absurd (by rw [List.mem_append, not_or]; exact h') h

/-- A list is asked for: nothing is downloaded, whatever else is given. -/
theorem C143_list_only (w : World) (d : Disk) (a : Args) (k : Kind) (hk : a.listed = some k) :
    command w d a = .refused ∨ command w d a = .listed (listSets w.collection w.sets (decide (k = .individual))) := by
  unfold command
  dsimp only
  split
  · exact .inl rfl
  · right; rw [hk]; cases k <;> rfl

/-- C143.  The list of complete sets can always be printed and shows every set followed by its members. -/
theorem C143_list : listSets collection complete false = some (complete.flatMap fun s => Line.set s.1 :: s.2.map Line.data) ∧
    listSets collection complete true = some (published.map fun e => Line.data e.1) := by
  constructor
  · have key : ∀ ns : List String, (∀ n ∈ ns, Obtainable collection n) → (ns.mapM fun n => (collection.lookup n).map fun _ => Line.data n) = some (ns.map Line.data) := by
      intro ns
      induction ns with
      | nil => intro _; rfl
      | cons n ns ih =>
        intro h
        obtain ⟨u, s, e⟩ := h n (by simp)
        rw [List.mapM_cons, e, ih fun k hk => h k (by simp [hk])]
        rfl
    have all : ∀ ss : List (String × List String), (∀ s ∈ ss, ∀ n ∈ s.2, Obtainable collection n) →
        (ss.mapM fun s => (s.2.mapM fun n => (collection.lookup n).map fun _ => Line.data n).map fun l => Line.set s.1 :: l) = some (ss.map fun s => Line.set s.1 :: s.2.map Line.data) := by
      intro ss
      induction ss with
      | nil => intro _; rfl
      | cons s ss ih =>
        intro h
        rw [List.mapM_cons, key s.2 (h s (by simp)), ih fun k hk => h k (by simp [hk])]
        rfl
    unfold listSets
    rw [if_neg (by simp), all complete fun s hs => (C143_sets s hs).2]
    simp [List.flatMap_def]
  · unfold listSets collection
    rw [if_pos rfl, List.map_map]
    rfl

/-- C143.  The names accepted by the command are those shown by the two lists. -/
theorem C143_shown (w : World) (hc : w.collection = collection) (hs : w.sets = complete) (d : Disk) (name : String) :
    command w d ⟨some name, none, false⟩ ≠ .refused ↔
      Line.set name ∈ (listSets collection complete false).getD [] ∨ Line.data name ∈ (listSets collection complete true).getD [] := by
  rw [ne_eq, C143_command, C143_list.1, C143_list.2, hc, hs, names_collection]
  simp only [Option.getD_some, List.mem_flatMap, List.mem_cons, List.mem_map, Line.set.injEq, Line.data.injEq, reduceCtorEq, and_false, exists_false, or_false]
  constructor
  · intro h
    by_cases h1 : ∃ a ∈ complete, a.1 = name
    · left
      obtain ⟨a, ha, e⟩ := h1
      exact ⟨a, ha, e.symm⟩
    · right
      by_contra h2
      exact h ⟨h1, h2⟩
  · rintro (⟨a, ha, e⟩ | h) ⟨h1, h2⟩
    · exact h1 ⟨a, ha, e.symm⟩
    · exact h2 h

/-- C143 fails for the collection itself: it is shown and accepted but has no file. -/
theorem C143_accepted_violated (w : World) (hc : w.collection = collection) (hs : w.sets = complete) (d : Disk) (b : Bool) :
    command w d ⟨some "POSYDON", none, b⟩ = .downloaded d (some .value) := by
  have h1 : collection.lookup "POSYDON" = some ⟨none, none⟩ := rfl
  have h2 : complete.lookup "POSYDON" = none := by
    have h : (complete.lookup "POSYDON").isNone = true := by decide +kernel
    exact Option.isNone_iff_eq_none.1 h
  have h3 : dataDownload w (!b) d "POSYDON" = (d, some .value) := by
    unfold dataDownload downloadOne
    rw [hs, h2, hc, h1]
  unfold command
  dsimp only
  rw [Option.getD_some, h3, hc, hs, if_neg]
  rw [not_not, List.mem_append, names_collection]
  exact .inr (by decide +kernel)

/-- All other data sets of the collection can be obtained alone. -/
theorem C143_individual : ∀ e ∈ published, e.1 ≠ "POSYDON" → Obtainable collection e.1 := by decide +kernel

/-- C143.  A path of the environment is the directory that was set, or an error tells what is wrong. -/
theorem C143_path (env : String → Option String) (isDir : String → Bool) (n : Option String) :
    (∀ v, ensurePath env isDir n = .ok v ↔ ∃ m, n = some m ∧ env m = some v ∧ isDir v = true) ∧
    (ensurePath env isDir n = .error .type ↔ n = none) ∧ (ensurePath env isDir n = .error .name ↔ ∃ m, n = some m ∧ env m = none) := by
  cases n with
  | none =>
    refine ⟨fun v => ⟨fun h => (nomatch h), fun ⟨m, h, _⟩ => (nomatch h)⟩, ⟨fun _ => rfl, fun _ => rfl⟩, ⟨fun h => (nomatch h), fun ⟨m, h, _⟩ => (nomatch h)⟩⟩
  | some m =>
    cases hm : env m with
    | none =>
      have e : ensurePath env isDir (some m) = .error .name := by simp only [ensurePath, hm]
      rw [e]
      refine ⟨fun v => ⟨fun h => (nomatch h), ?_⟩, ⟨fun h => (nomatch h), fun h => (nomatch h)⟩, ⟨fun _ => ⟨m, rfl, hm⟩, fun _ => rfl⟩⟩
      rintro ⟨k, hk, e, _⟩; cases hk; rw [hm] at e; cases e
    | some v =>
      have e : ensurePath env isDir (some m) = if isDir v = true then .ok v else .error .directory := by simp only [ensurePath, hm]
      rw [e]
      have no : ¬∃ k, some m = some k ∧ env k = none := by rintro ⟨k, hk, e⟩; cases hk; rw [hm] at e; cases e
      by_cases hd : isDir v = true
      · rw [if_pos hd]
        refine ⟨fun v' => ⟨fun h => ?_, ?_⟩, ⟨fun h => (nomatch h), fun h => (nomatch h)⟩, ⟨fun h => (nomatch h), fun h => absurd h no⟩⟩
        · cases h; exact ⟨m, rfl, hm, hd⟩
        · rintro ⟨k, hk, e, _⟩; cases hk; rw [hm] at e; cases e; rfl
      · rw [if_neg hd]
        refine ⟨fun v' => ⟨fun h => (nomatch h), ?_⟩, ⟨fun h => (nomatch h), fun h => (nomatch h)⟩, ⟨fun h => (nomatch h), fun h => absurd h no⟩⟩
        rintro ⟨k, hk, e, h⟩; cases hk; rw [hm] at e; cases e; exact absurd h hd

/-- Non-vacuity: there is a server without faults. -/
example : ∃ w : World, w.collection = collection ∧ w.sets = complete ∧ Fine w := by
  refine ⟨world (fun u => ⟨((published.filterMap fun e => e.2.2)[u]?).getD 0, true⟩) fun _ => ⟨false, false, false, false⟩, rfl, rfl, fun _ => rfl, ?_⟩
  have key : ∀ e ∈ collection, ∀ u s, e.2 = ⟨some u, some s⟩ → ((published.filterMap fun e => e.2.2)[u]?).getD 0 = s := by
    have : ∀ e ∈ collection, (do let u ← e.2.url; let s ← e.2.md5; pure (((published.filterMap fun e => e.2.2)[u]?).getD 0 == s)) ≠ some false := by decide +kernel
    intro e he u s h
    have := this e he
    rw [h] at this
    by_contra hn
    apply this
    simp [hn]
  intro n u s h
  have hm : (n, (⟨some u, some s⟩ : Entry)) ∈ collection := by
    change collection.lookup n = _ at h
    clear key
    revert h
    generalize collection = l
    intro h
    induction l with
    | nil => cases h
    | cons a l ih =>
      rw [List.lookup_cons] at h
      by_cases hn : n == a.1
      · rw [hn] at h; dsimp only at h; have e := beq_iff_eq.1 hn; cases a; cases h; subst e; simp
      · rw [Bool.not_eq_true] at hn; rw [hn] at h; exact List.mem_cons_of_mem _ (ih h)
  change (⟨_, true⟩ : Archive) = _
  rw [key _ hm u s rfl]

end Verif.Datasets
