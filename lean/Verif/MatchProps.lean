import Verif.Match
/-!
C74: which star of a binary is matched to which single-star grid, with which quantities, and what is recorded.
-/
namespace Verif.Match
open Verif.FlowChart

theorem all_pairs (p : Star → Star → Bool) (h : (Star.all.all fun a => Star.all.all (p a)) = true) (a b : Star) : p a b = true := by
  have ha : a ∈ Star.all := by cases a <;> decide
  have hb : b ∈ Star.all := by cases b <;> decide
  exact List.all_eq_true.1 (List.all_eq_true.1 h a ha) b hb

/-- The star of a role. -/
def Role.star (r : Role) (a b : Star) : Star := if r.one then a else b

/-- Both stars exist. -/
def bothThere (a b : Star) : Bool := a ≠ .massless && b ≠ .massless

/-- The stars are of the same type: both compact, or neither and both with or both without hydrogen. -/
def sameType (a b : Star) : Bool :=
  (compact a && compact b) || (!compact a && !compact b && (hydrogen a == hydrogen b))

def rolesOk (a b : Star) : Bool :=
  (a = .massless && b = .massless) ||
  match roles (.st a) (.st b) with
  | .error _ => false
  | .ok r =>
    let sec := r.secondary.star a b
    let pri := r.primary.star a b
    (r.primary.one == !r.secondary.one) && sec ≠ .massless && (r.secondary.co == compact sec) &&
      (r.secondary.htrack == hydrogen sec) &&
      (if pri = .massless then r.primary.co && (r.primary.htrack == hydrogen sec) else
        (r.primary.co == compact pri) &&
          (r.primary.htrack == (if compact pri && !compact sec then hydrogen sec else hydrogen pri))) &&
      (!(bothThere a b && (compact a != compact b)) || compact pri) &&
      (!(bothThere a b && !compact a && !compact b && (hydrogen a != hydrogen b)) || hydrogen sec) &&
      (!(bothThere a b && sameType a b) || !r.secondary.one) &&
      (r.onlyCO == (decide (pri = .massless) && compact sec))

set_option maxRecDepth 20000 in
theorem rolesOk_all : (Star.all.all fun a => Star.all.all (rolesOk a)) = true := by decide +kernel

/-- **C74**: whenever one of the stars exists, roles are assigned to the two different stars, and the one whose evolution is
followed (the secondary) exists.  The flags are those of the stars' states: `co` for compact objects, `htrack` for stars with
hydrogen.  A compact object or a missing star is never the secondary beside a star, and takes the grid of its companion; of a
star with and a star without hydrogen the secondary is the one with hydrogen; otherwise it is star 2.  Only a lone compact
object is reported as such. -/
theorem C74_roles (a b : Star) (h : ¬ (a = .massless ∧ b = .massless)) :
    ∃ r, roles (.st a) (.st b) = .ok r ∧ r.primary.one = !r.secondary.one ∧ r.secondary.star a b ≠ .massless ∧
      r.secondary.co = compact (r.secondary.star a b) ∧ r.secondary.htrack = hydrogen (r.secondary.star a b) ∧
      (r.primary.star a b = .massless → r.primary.co = true ∧ r.primary.htrack = hydrogen (r.secondary.star a b)) ∧
      (r.primary.star a b ≠ .massless → r.primary.co = compact (r.primary.star a b) ∧
        r.primary.htrack = if compact (r.primary.star a b) ∧ compact (r.secondary.star a b) = false then
          hydrogen (r.secondary.star a b) else hydrogen (r.primary.star a b)) ∧
      (bothThere a b = true → compact a ≠ compact b → compact (r.primary.star a b) = true) ∧
      (bothThere a b = true → compact a = false → compact b = false → hydrogen a ≠ hydrogen b →
        hydrogen (r.secondary.star a b) = true) ∧
      (bothThere a b = true → sameType a b = true → r.secondary.one = false) ∧
      (r.onlyCO = true ↔ r.primary.star a b = .massless ∧ compact (r.secondary.star a b) = true) := by
  have h0 := all_pairs rolesOk rolesOk_all a b
  unfold rolesOk at h0
  cases hr : roles (.st a) (.st b) with
  | error e => simp [hr] at h0; exact absurd h0 h
  | ok r =>
    rw [hr] at h0
    refine ⟨r, rfl, ?_⟩
    simp only [Bool.or_eq_true, Bool.and_eq_true, decide_eq_true_eq, beq_iff_eq, Bool.not_eq_true',
      ne_eq] at h0
    have h1 := h0.resolve_left h
    obtain ⟨⟨⟨⟨⟨⟨⟨⟨q1, q2⟩, q3⟩, q4⟩, q5⟩, q6⟩, q7⟩, q8⟩, q9⟩ := h1
    refine ⟨q1, q2, q3, q4, ?_, ?_, ?_, ?_, ?_, ?_⟩
    · intro hp
      rw [if_pos hp] at q5
      exact ⟨(Bool.and_eq_true _ _ ▸ q5).1, eq_of_beq (Bool.and_eq_true _ _ ▸ q5).2⟩
    · intro hp
      rw [if_neg hp] at q5
      refine ⟨eq_of_beq (Bool.and_eq_true _ _ ▸ q5).1, ?_⟩
      have := eq_of_beq (Bool.and_eq_true _ _ ▸ q5).2
      rw [this]
    · intro hb hc
      rcases q6 with q | q
      · rw [hb] at q; simp at q; exact absurd q hc
      · exact q
    · intro hb hc hd hh
      rcases q7 with q | q
      · rw [hb, hc, hd] at q; simp at q; first | exact absurd q hh | exact hh
      · exact q
    · intro hb hs
      rcases q8 with q | q
      · rw [hb, hs] at q; simp at q
      · exact q
    · rw [q9]; simp

example : roles (.st .BH) (.st .hCoreH) = .ok ⟨⟨true, true, true⟩, ⟨false, false, true⟩, false⟩ := by decide
example : roles (.st .hCoreH) (.st .sCoreHe) = .ok ⟨⟨false, false, false⟩, ⟨true, false, true⟩, false⟩ := by decide
example : roles (.st .NS) (.st .massless) = .ok ⟨⟨false, true, false⟩, ⟨true, true, false⟩, true⟩ := by decide

/-- **C74**: roles are refused exactly when no star exists, a star object is missing, or a state is not in the table. -/
theorem C74_roles_errors (s1 s2 : St) :
    (roles s1 s2 = .error .posydon ↔ there s1 = false ∧ there s2 = false) ∧
    (roles s1 s2 = .error .attribute ↔ (there s1 = true ∨ there s2 = true) ∧ (s1 = .absent ∨ s2 = .absent)) ∧
    (roles s1 s2 = .error .value ↔ (s1 ≠ .absent ∧ s2 ≠ .absent) ∧ (s1 = .other ∨ s2 = .other)) ∧
    ((∃ r, roles s1 s2 = .ok r) ↔ ∃ a b : Star, s1 = .st a ∧ s2 = .st b ∧ ¬ (a = .massless ∧ b = .massless)) := by
  have key : ∀ s1 s2 : St, (s1 = .absent ∨ s1 = .other ∨ s1 = .st .massless) → (s2 = .absent ∨ s2 = .other ∨ s2 = .st .massless) →
      roles s1 s2 = if there s1 = false ∧ there s2 = false then .error .posydon
        else if s1 = .absent ∨ s2 = .absent then .error .attribute else .error .value := by
    rintro s1 s2 (rfl | rfl | rfl) (rfl | rfl | rfl) <;> decide
  by_cases h1 : s1 = .absent ∨ s1 = .other ∨ s1 = .st .massless
  · by_cases h2 : s2 = .absent ∨ s2 = .other ∨ s2 = .st .massless
    · rw [key s1 s2 h1 h2]
      rcases h1 with rfl | rfl | rfl <;> rcases h2 with rfl | rfl | rfl <;> simp [there]
    · rcases s2 with _ | _ | b
      · simp at h2
      · simp at h2
      · have hb : b ≠ .massless := by simpa using h2
        have ht : there (.st b) = true := by simp [there, hb]
        rcases h1 with rfl | rfl | rfl
        · simp [roles, missing, ht, show there .absent = false from rfl]
        · simp [roles, missing, ht, show there .other = true from rfl, show St.valid .other = false from rfl]
        · obtain ⟨r, hr, -⟩ := C74_roles .massless b (fun h => hb h.2)
          simp [hr, ht, hb]
  · rcases s1 with _ | _ | a
    · simp at h1
    · simp at h1
    · have ha : a ≠ .massless := by simpa using h1
      have ht : there (.st a) = true := by simp [there, ha]
      rcases s2 with _ | _ | b
      · simp [roles, missing, ht, show there .absent = false from rfl]
      · simp [roles, missing, ht, show there .other = true from rfl, show St.valid .other = false from rfl]
      · obtain ⟨r, hr, -⟩ := C74_roles a b (fun h => ha h.1)
        simp [hr, ht, ha]

def Role.mirror (r : Role) : Role := ⟨!r.one, r.co, r.htrack⟩
def Roles.mirror (r : Roles) : Roles := ⟨r.primary.mirror, r.secondary.mirror, r.onlyCO⟩

def mirrorOk (a b : Star) : Bool :=
  (bothThere a b && sameType a b) || (a = .massless && b = .massless) ||
  match roles (.st a) (.st b), roles (.st b) (.st a) with
  | .ok r, .ok r' => r' == r.mirror
  | _, _ => false

set_option maxRecDepth 20000 in
theorem mirrorOk_all : (Star.all.all fun a => Star.all.all (mirrorOk a)) = true := by decide +kernel

/-- **C74**: exchanging the stars exchanges the roles, unless both exist and are of the same type (then the role follows the
number of the star). -/
theorem C74_mirror (a b : Star) (r : Roles) (h : roles (.st a) (.st b) = .ok r)
    (hd : ¬ (bothThere a b = true ∧ sameType a b = true)) : roles (.st b) (.st a) = .ok r.mirror := by
  have h0 := all_pairs mirrorOk mirrorOk_all a b
  unfold mirrorOk at h0
  have hm : ¬ (a = .massless ∧ b = .massless) := by
    rintro ⟨rfl, rfl⟩; revert h; simp [show roles (.st .massless) (.st .massless) = .error .posydon by decide]
  rw [h] at h0
  cases hr : roles (.st b) (.st a) with
  | error e => rw [hr] at h0; simp [hm] at h0; exact absurd h0 hd
  | ok r' =>
    rw [hr] at h0
    simp only [Bool.or_eq_true, Bool.and_eq_true, decide_eq_true_eq, beq_iff_eq] at h0
    rcases h0 with (q | q) | q
    · exact absurd q hd
    · exact absurd q hm
    · rw [q]

example : roles (.st .hCoreH) (.st .BH) = .ok ⟨⟨false, true, true⟩, ⟨true, false, true⟩, false⟩ := by decide

/-! ### Quantities -/

/-- The documented quantities for each kind of star (class documentation, l.70-92, apart from evolved helium stars, for which
the central helium is left out). -/
def documented (alt : Bool) : Kind → List String
  | .mainSequence => if alt then ["mass", "center_h1", "he_core_mass"] else ["mass", "center_h1", "log_R", "he_core_mass"]
  | .postMS => if alt then ["mass", "center_he4", "he_core_mass"] else ["mass", "center_he4", "log_R", "he_core_mass"]
  | .heStar => ["he_core_mass", "center_he4", "log_R"]
  | .postHe => ["he_core_mass", "log_R"]
  | _ => []

def quantities (l : Lst) : List String := (defaults l).map Prod.fst

/-- The first list used for a kind of star. -/
def firstList : Kind → Lst
  | .mainSequence => .HMS | .postMS => .postMS | .heStar => .heStar | _ => .postHeMS

def altList : Kind → Lst
  | .mainSequence => .HMSalt | .postMS => .postMSalt | .heStar => .heStarAlt | _ => .postHeMSalt

set_option maxRecDepth 20000 in
theorem lists_all : (Star.all.all fun s => [true, false].all fun h =>
    (kind s = .compact || kind s = .nothing || s = .aCoreHe) ||
    (decide (attrs .default (.st s) h = .ok (some (firstList (kind s), h))) &&
      decide (attrs .alt (.st s) h = .ok (some (altList (kind s), h))) &&
      decide (attrs .evolvedAlt (.st s) h =
        if kind s = .mainSequence then .ok none else .ok (some (firstList (kind s), decide (kind s ≠ .postMS)))))) = true := by
  decide +kernel

/-- **C74** (all stars but one state, see `C74_helium_accretor_violated`): the star's kind decides the list of quantities, on
the grid the star was given; the last attempt uses the other grid — the H-rich one for helium stars and the helium one for
evolved H-rich stars — and is left out on the main sequence. -/
theorem C74_lists_partial (s : Star) (h : Bool) (hk : kind s ≠ .compact ∧ kind s ≠ .nothing) (hs : s ≠ .aCoreHe) :
    attrs .default (.st s) h = .ok (some (firstList (kind s), h)) ∧
    attrs .alt (.st s) h = .ok (some (altList (kind s), h)) ∧
    attrs .evolvedAlt (.st s) h =
      (if kind s = .mainSequence then .ok none else .ok (some (firstList (kind s), decide (kind s ≠ .postMS)))) := by
  have hm : s ∈ Star.all := by cases s <;> decide
  have hh : h ∈ [true, false] := by cases h <;> decide
  have h0 := List.all_eq_true.1 (List.all_eq_true.1 lists_all s hm) h hh
  simp only [Bool.or_eq_true, Bool.and_eq_true, decide_eq_true_eq] at h0
  rcases h0 with ((q | q) | q) | q
  · exact absurd q hk.1
  · exact absurd q hk.2
  · exact absurd q hs
  · exact ⟨q.1.1, q.1.2, q.2⟩

example : attrs .evolvedAlt (.st .sCoreHe) false = .ok (some (.heStar, true)) := by decide +kernel

/-- **C74**: compact objects, massless remnants and states outside the table cannot be matched. -/
theorem C74_lists_errors (h : Bool) :
    (∀ s : Star, kind s = .compact ∨ kind s = .nothing → attrs .default (.st s) h = .error .value ∧ attrs .alt (.st s) h = .error .value) ∧
    attrs .default .other h = .error .value := by
  refine ⟨fun s hs => ?_, by simp [attrs, St.isOf]⟩
  cases h <;> cases s <;> first | (exfalso; revert hs; decide) | decide +kernel

/-- **C74** (refuted): "a star in a helium-star state is matched with the helium-star quantities".  An accretor of helium that
burns helium is in the list of helium stars and is put on the helium grid, but the list of evolved H-rich stars is consulted
first and contains it too: it is matched by total mass, and with the helium-star quantities only on the H-rich grid. -/
theorem C74_helium_accretor_violated : Star.aCoreHe ∈ forHestar ∧ kind .aCoreHe = .heStar ∧ (St.st .aCoreHe).htrack = false ∧
    (∀ h, attrs .default (.st .aCoreHe) h = .ok (some (.postMS, h))) ∧
    (∀ h, attrs .alt (.st .aCoreHe) h = .ok (some (.postMSalt, h))) ∧
    (∀ h, attrs .evolvedAlt (.st .aCoreHe) h = .ok (some (.heStar, true))) := by
  refine ⟨by decide +kernel, by decide, by decide, ?_, ?_, ?_⟩ <;> intro h <;> cases h <;> decide +kernel

/-- **C74** (all but the alternative for evolved H-rich stars): the default quantities are the documented ones. -/
theorem C74_documented_partial (k : Kind) (hk : k ≠ .compact ∧ k ≠ .nothing) :
    quantities (firstList k) = documented false k ∧ (k ≠ .postMS → quantities (altList k) = documented true k) := by
  cases k
  · decide
  · decide
  · decide
  · decide
  · exact absurd rfl hk.1
  · exact absurd rfl hk.2

/-- **C74** (refuted): "the alternative quantities of evolved H-rich stars are mass, central helium and helium core mass".  The
code uses the central hydrogen, which is zero in these stars. -/
theorem C74_documented_violated : quantities .postMSalt ≠ documented true .postMS ∧
    "center_h1" ∈ quantities .postMSalt ∧ "center_he4" ∉ quantities .postMSalt := by decide

/-- **C74**: no alternative has a quantity the first list has not, except the central hydrogen above. -/
theorem C74_alternative_subset (k : Kind) (q : String) (hq : q ∈ quantities (altList k)) (hn : ¬ (k = .postMS ∧ q = "center_h1")) :
    q ∈ quantities (firstList k) := by
  have : ∀ q ∈ quantities (altList k), ¬ (k = .postMS ∧ q = "center_h1") → q ∈ quantities (firstList k) := by
    cases k <;> decide
  exact this q hq hn

/-! ### Matching -/

theorem data_ok {b : Bin} {r : Role} {c : Option (ℚ × ℚ)} {d : Option (ℚ × ℚ)} (h : data b r c = .ok d) :
    (r.co = true → d = c) ∧
    (r.co = false → b.event = .ZAMS ∨ b.event = .rZAMS → d = some (b.mass r.one, 0)) ∧
    (∀ m0 t0, d = some (m0, t0) → 0 < b.maxTime ∧
      (r.co = false → ∃ g, (b.grid g).1 ≤ m0 ∧ m0 ≤ (b.grid g).2 ∧
        (b.event = .ZAMS ∨ b.event = .rZAMS → g = r.htrack) ∧
        (b.event ≠ .ZAMS → b.event ≠ .rZAMS → b.search r.one r.htrack = .ok (some (m0, t0, g))))) := by
  unfold data at h
  cases hg : guess b r c with
  | error e => rw [hg] at h; cases h
  | ok x =>
    rw [hg] at h
    cases x with
    | none =>
      dsimp only at h
      cases h
      refine ⟨fun hc => ?_, fun hc he => ?_, fun m0 t0 hd => by cases hd⟩
      · unfold guess at hg; rw [if_pos hc] at hg
        cases c with
        | none => rfl
        | some c => cases hg
      · unfold guess at hg
        rw [if_neg (by simp [hc]), if_pos (by rcases he with e | e <;> simp [e])] at hg
        cases hg
    | some x =>
      obtain ⟨m0, t0, g⟩ := x
      dsimp only at h
      by_cases hout : (m0 < (b.grid g).1 && !r.co) || (m0 > (b.grid g).2 && !r.co)
      · rw [if_pos hout] at h; cases h
      rw [if_neg hout] at h
      by_cases ht : b.maxTime > 0
      · rw [if_neg (by simpa using ht)] at h
        cases h
        refine ⟨fun hc => ?_, fun hc he => ?_, fun m t hd => ⟨ht, fun hc => ⟨g, ?_⟩⟩⟩
        · unfold guess at hg; rw [if_pos hc] at hg
          cases c with
          | none => cases hg
          | some c => simp at hg; obtain ⟨h1, h2, h3⟩ := hg; subst h1; subst h2; rfl
        · unfold guess at hg
          rw [if_neg (by simp [hc]), if_pos (by rcases he with e | e <;> simp [e])] at hg
          simp at hg; rw [hg.1, hg.2.1]
        · cases hd
          simp only [hc, Bool.not_false, Bool.and_true, Bool.or_eq_true, decide_eq_true_eq, not_or, not_lt] at hout
          refine ⟨hout.1, hout.2, fun he => ?_, fun he1 he2 => ?_⟩
          · unfold guess at hg
            rw [if_neg (by simp [hc]), if_pos (by rcases he with e | e <;> simp [e])] at hg
            simp at hg; exact hg.2.2.symm
          · unfold guess at hg
            rw [if_neg (by simp [hc]), if_neg (by simp [he1, he2])] at hg
            exact hg
      · rw [if_pos (by simpa using ht)] at h; cases h

/-- The pieces of a successful matching. -/
theorem run_ok {b : Bin} {ws wp rec : Bool} {o : Out} (h : run b ws wp rec = .ok o) :
    ∃ r prev, roles b.s1 b.s2 = .ok r ∧ o.roles = r ∧ secondary b r ws = .ok (o.sec, prev) ∧ primary b r wp prev = .ok o.pri ∧
      (ws = true → o.sec ≠ none) ∧ (wp = true → o.pri ≠ none) ∧
      o.hit1 = ((ws && !r.secondary.co && r.secondary.one) ||
        (wp && (!r.primary.co && decide (missing b.s1 b.s2 = 0)) && r.primary.one)) ∧
      o.hit2 = ((ws && !r.secondary.co && !r.secondary.one) ||
        (wp && (!r.primary.co && decide (missing b.s1 b.s2 = 0)) && !r.primary.one)) ∧
      o.event = (if rec then matchEvent o.hit1 o.hit2 b.event else b.event) ∧ o.rows = (if rec then 1 else 0) := by
  unfold run at h
  cases hr : roles b.s1 b.s2 with
  | error e => rw [hr] at h; cases h
  | ok r =>
    rw [hr] at h; dsimp only at h
    cases hs : secondary b r ws with
    | error e => rw [hs] at h; cases h
    | ok x =>
      obtain ⟨s, prev⟩ := x
      rw [hs] at h; dsimp only at h
      cases hp : primary b r wp prev with
      | error e => rw [hp] at h; cases h
      | ok p =>
        rw [hp] at h; dsimp only at h
        by_cases hn : (decide (s = none) && ws) || (decide (p = none) && wp)
        · rw [if_pos hn] at h; cases h
        · rw [if_neg hn] at h
          cases h
          simp only [Bool.or_eq_true, Bool.and_eq_true, decide_eq_true_eq, not_or, not_and] at hn
          exact ⟨r, prev, rfl, rfl, hs, hp, fun w e => hn.1 e w, fun w e => hn.2 e w, rfl, rfl, rfl, rfl⟩

theorem missing_zero (a b : Star) : missing (.st a) (.st b) = 0 ↔ a ≠ .massless ∧ b ≠ .massless := by
  unfold missing there
  by_cases ha : a = .massless <;> by_cases hb : b = .massless <;> simp [ha, hb]

/-- **C74**: when both stars are to be matched, the stars matched to a track are exactly those that exist and are not compact
objects, and every star has an interpolator afterwards. -/
theorem C74_matched (b : Bin) (rec : Bool) (o : Out) (x y : Star) (hx : b.s1 = .st x) (hy : b.s2 = .st y)
    (h : run b true true rec = .ok o) :
    (o.hit1 = true ↔ x ≠ .massless ∧ compact x = false) ∧ (o.hit2 = true ↔ y ≠ .massless ∧ compact y = false) ∧
    o.sec ≠ none ∧ o.pri ≠ none := by
  obtain ⟨r, prev, hr, -, -, -, hs, hp, h1, h2, -, -⟩ := run_ok h
  rw [hx, hy] at hr
  have hm : ¬ (x = .massless ∧ y = .massless) := by
    rintro ⟨rfl, rfl⟩; revert hr; simp [show roles (.st .massless) (.st .massless) = .error .posydon by decide]
  obtain ⟨r', hr', q1, q2, q3, q4, q5, q6, -⟩ := C74_roles x y hm
  rw [hr] at hr'; cases hr'
  refine ⟨?_, ?_, hs rfl, hp rfl⟩
  · rw [h1, hx, hy]
    simp only [Bool.true_and, Bool.or_eq_true, Bool.and_eq_true, Bool.not_eq_true', decide_eq_true_eq, missing_zero]
    cases ho : r.secondary.one
    · have hpo : r.primary.one = true := by rw [q1, ho]; rfl
      simp only [Role.star, ho, hpo, if_true, Bool.false_eq_true, if_false] at q2 q5 q6
      constructor
      · rintro (⟨-, h⟩ | ⟨⟨h, h'⟩, -⟩)
        · cases h
        · exact ⟨h'.1, (q6 h'.1).1 ▸ h⟩
      · rintro ⟨ha, hc⟩
        exact Or.inr ⟨⟨(q6 ha).1.trans hc, ha, q2⟩, hpo⟩
    · have hpo : r.primary.one = false := by rw [q1, ho]; rfl
      simp only [Role.star, ho, if_true] at q2 q3
      constructor
      · rintro (⟨h, -⟩ | ⟨-, h⟩)
        · exact ⟨q2, q3 ▸ h⟩
        · rw [hpo] at h; cases h
      · rintro ⟨-, hc⟩
        exact Or.inl ⟨q3.trans hc, rfl⟩
  · rw [h2, hx, hy]
    simp only [Bool.true_and, Bool.or_eq_true, Bool.and_eq_true, Bool.not_eq_true', decide_eq_true_eq, missing_zero]
    cases ho : r.secondary.one
    · have hpo : r.primary.one = true := by rw [q1, ho]; rfl
      simp only [Role.star, ho, Bool.false_eq_true, if_false] at q2 q3
      constructor
      · rintro (⟨h, -⟩ | ⟨-, h⟩)
        · exact ⟨q2, q3 ▸ h⟩
        · rw [hpo] at h; cases h
      · rintro ⟨-, hc⟩
        exact Or.inl ⟨q3.trans hc, rfl⟩
    · have hpo : r.primary.one = false := by rw [q1, ho]; rfl
      simp only [Role.star, ho, hpo, if_true, Bool.false_eq_true, if_false] at q2 q5 q6
      constructor
      · rintro (⟨-, h⟩ | ⟨⟨h, h'⟩, -⟩)
        · cases h
        · exact ⟨h'.2, (q6 h'.2).1 ▸ h⟩
      · rintro ⟨ha, hc⟩
        exact Or.inr ⟨⟨(q6 ha).1.trans hc, q2, ha⟩, hpo⟩

/-- **C74**: the tracks used.  A compact or missing primary takes over the track of the secondary; a lone or double compact
object has its mass and the time of the binary as a stand-in; a star at birth is matched to the track of its own mass at age
zero; any other star to the track found for it, and the track lies within the masses of the grid used. -/
theorem C74_tracks (b : Bin) (rec : Bool) (o : Out) (h : run b true true rec = .ok o) :
    (o.roles.primary.co = true → o.pri = o.sec) ∧
    (o.roles.secondary.co = true → o.sec = some (b.mass o.roles.secondary.one, b.time)) ∧
    (b.event = .ZAMS ∨ b.event = .rZAMS →
      (o.roles.secondary.co = false → o.sec = some (b.mass o.roles.secondary.one, 0)) ∧
      (o.roles.primary.co = false → missing b.s1 b.s2 = 0 → o.pri = some (b.mass o.roles.primary.one, 0))) ∧
    (∀ r d, (r = o.roles.secondary ∧ d = o.sec) ∨ (r = o.roles.primary ∧ d = o.pri ∧ missing b.s1 b.s2 = 0) → r.co = false →
      ∃ m0 t0 g, d = some (m0, t0) ∧ (b.grid g).1 ≤ m0 ∧ m0 ≤ (b.grid g).2 ∧
        (b.event ≠ .ZAMS → b.event ≠ .rZAMS → b.search r.one r.htrack = .ok (some (m0, t0, g)))) := by
  obtain ⟨r, prev, hr, ho, hs, hp, hsn, hpn, -, -, -, -⟩ := run_ok h
  rw [ho]
  unfold secondary at hs
  rw [if_pos rfl] at hs
  cases hd : data b r.secondary (if r.secondary.co then some (b.mass r.secondary.one, b.time) else none) with
  | error e => rw [hd] at hs; cases hs
  | ok d =>
    rw [hd] at hs; dsimp only at hs
    have e1 : d = o.sec := congrArg Prod.fst (Except.ok.inj hs)
    have e2 : some d = prev := congrArg Prod.snd (Except.ok.inj hs)
    subst e2
    rw [e1] at hd hp
    have D := data_ok hd
    unfold primary at hp
    rw [if_pos rfl] at hp
    have hsome : ∀ d : Option (ℚ × ℚ), d ≠ none → ∃ m t, d = some (m, t) := fun d hd => by
      cases d with
      | none => exact absurd rfl hd
      | some x => exact ⟨x.1, x.2, rfl⟩
    refine ⟨fun hc => ?_, fun hc => ?_, fun he => ⟨fun hc => D.2.1 hc he, fun hc hm => ?_⟩, ?_⟩
    · rw [if_pos (by simp [hc])] at hp
      exact (data_ok hp).1 hc
    · rw [D.1 hc, if_pos hc]
    · rw [if_neg (by simp [hc, hm]), if_pos (by simp [hc, hm])] at hp
      exact (data_ok hp).2.1 hc he
    · rintro q d' (⟨rfl, rfl⟩ | ⟨rfl, rfl, hm⟩) hc
      · obtain ⟨m, t, hmt⟩ := hsome _ (hsn rfl)
        obtain ⟨-, g, g1, g2, -, g4⟩ := (D.2.2 m t hmt).imp_right (fun k => k hc)
        exact ⟨m, t, g, hmt, g1, g2, g4⟩
      · rw [if_neg (by simp [hc, hm]), if_pos (by simp [hc, hm])] at hp
        obtain ⟨m, t, hmt⟩ := hsome _ (hpn rfl)
        obtain ⟨-, g, g1, g2, -, g4⟩ := ((data_ok hp).2.2 m t hmt).imp_right (fun k => k hc)
        exact ⟨m, t, g, hmt, g1, g2, g4⟩

/-- **C74**: the event tells which stars were matched, and one row is appended, if matching is recorded; otherwise neither
changes. -/
theorem C74_event (b : Bin) (ws wp rec : Bool) (o : Out) (h : run b ws wp rec = .ok o) :
    (rec = true → o.rows = 1 ∧
      (o.event = .Match12 ∧ o.hit1 = true ∧ o.hit2 = true ∨ o.event = .Match1 ∧ o.hit1 = true ∧ o.hit2 = false ∨
        o.event = .Match2 ∧ o.hit1 = false ∧ o.hit2 = true ∨ o.event = b.event ∧ o.hit1 = false ∧ o.hit2 = false)) ∧
    (rec = false → o.rows = 0 ∧ o.event = b.event) := by
  obtain ⟨r, prev, -, -, -, -, -, -, -, -, he, hrow⟩ := run_ok h
  constructor
  · intro hrec
    subst hrec
    rw [if_pos rfl] at he hrow
    refine ⟨hrow, ?_⟩
    rw [he]; unfold matchEvent
    cases o.hit1 <;> cases o.hit2 <;> simp
  · intro hrec
    subst hrec
    rw [if_neg (by simp)] at he hrow
    exact ⟨hrow, he⟩

/-- **C74**: a star whose matching is not asked for keeps its interpolator and is not reported as matched. -/
theorem C74_not_asked (b : Bin) (rec : Bool) (o : Out) (h : run b true false rec = .ok o) :
    o.pri = b.old o.roles.primary.one ∧ (if o.roles.primary.one then o.hit1 else o.hit2) = false := by
  obtain ⟨r, prev, hr, ho, -, hp, -, -, h1, h2, -, -⟩ := run_ok h
  have hd : r.primary.one = !r.secondary.one := by
    obtain ⟨x, y, hx, hy, hm⟩ := (C74_roles_errors b.s1 b.s2).2.2.2.1 ⟨r, hr⟩
    obtain ⟨r', hr', q, -⟩ := C74_roles x y hm
    rw [hx, hy] at hr; rw [hr] at hr'; cases hr'; exact q
  rw [ho]
  unfold primary at hp
  rw [if_neg (by simp)] at hp
  refine ⟨(Except.ok.inj hp).symm, ?_⟩
  rw [h1, h2, hd]
  cases r.secondary.one <;> simp

/-- **C74**: a binary is marked as failed exactly by the errors of matching itself; no match, or a mass outside the grid, is
such an error. -/
theorem C74_failed (b : Bin) (ws wp rec : Bool) (e : Err) (f : Bool) (h : run b ws wp rec = .error (e, f)) :
    f = true ↔ e = .matching := by
  unfold run at h
  cases hr : roles b.s1 b.s2 with
  | error e' =>
    rw [hr] at h
    cases h
    have : e ≠ .matching := by
      rintro rfl
      have hx := C74_roles_errors b.s1 b.s2
      cases h1 : b.s1 <;> cases h2 : b.s2 <;> rw [h1, h2] at hr
      all_goals first
        | (revert hr; decide)
        | skip
      all_goals
        rename_i q
        first
        | (revert hr; cases q <;> decide)
        | (rename_i p; revert hr
           by_cases hm : p = .massless ∧ q = .massless
           · obtain ⟨rfl, rfl⟩ := hm; decide
           · obtain ⟨r, hr', -⟩ := C74_roles p q hm
             rw [hr']; intro hc; cases hc)
    simp [this]
  | ok r =>
    rw [hr] at h; dsimp only at h
    cases hs : secondary b r ws with
    | error e' => rw [hs] at h; cases h; simp
    | ok x =>
      obtain ⟨s, prev⟩ := x
      rw [hs] at h; dsimp only at h
      cases hp : primary b r wp prev with
      | error e' => rw [hp] at h; cases h; simp
      | ok p =>
        rw [hp] at h; dsimp only at h
        by_cases hn : (decide (s = none) && ws) || (decide (p = none) && wp)
        · rw [if_pos hn] at h; cases h; simp
        · rw [if_neg hn] at h; cases h

/-- **C74**: matching succeeds whenever one of the stars exists, each star that is neither compact nor missing is found on a
track within the masses of the grid, and the longest time is positive. -/
theorem C74_succeeds (b : Bin) (rec : Bool) (x y : Star) (hx : b.s1 = .st x) (hy : b.s2 = .st y)
    (hm : ¬ (x = .massless ∧ y = .massless)) (ht : 0 < b.maxTime) (he : b.event ≠ .ZAMS ∧ b.event ≠ .rZAMS)
    (hf : ∀ one h, ∃ m0 t0 g, b.search one h = .ok (some (m0, t0, g)) ∧ (b.grid g).1 ≤ m0 ∧ m0 ≤ (b.grid g).2) :
    ∃ o, run b true true rec = .ok o := by
  obtain ⟨r, hr, -⟩ := C74_roles x y hm
  have hdco : ∀ (q : Role) m t, q.co = true → data b q (some (m, t)) = .ok (some (m, t)) := fun q m t hq => by
    simp [data, guess, hq, ht]
  have hdn : ∀ (q : Role) c, q.co = false → ∃ d, data b q c = .ok (some d) := fun q c hq => by
    obtain ⟨m0, t0, g, h1, h2, h3⟩ := hf q.one q.htrack
    refine ⟨(m0, t0), ?_⟩
    simp [data, guess, hq, he.1, he.2, h1, not_lt.2 h2, not_lt.2 h3, ht]
  have hsec : ∃ d, secondary b r true = .ok (some d, some (some d)) := by
    unfold secondary
    rw [if_pos rfl]
    cases hc : r.secondary.co
    · obtain ⟨d, hd⟩ := hdn r.secondary none hc
      exact ⟨d, by rw [if_neg (by simp), hd]⟩
    · exact ⟨(b.mass r.secondary.one, b.time), by rw [if_pos rfl, hdco _ _ _ hc]⟩
  obtain ⟨d, hs⟩ := hsec
  have hpri : ∃ d', primary b r true (some (some d)) = .ok (some d') := by
    unfold primary
    rw [if_pos rfl]
    cases hc : r.primary.co
    · by_cases hmm : missing b.s1 b.s2 = 0
      · rw [if_neg (by simp [hmm]), if_pos (by simp [hmm])]
        exact hdn _ none hc
      · exfalso
        rw [hx, hy, missing_zero] at hmm
        obtain ⟨r', hr', q1, q2, q3, q4, q5, q6, -⟩ := C74_roles x y hm
        rw [hr] at hr'; cases hr'
        have : r.primary.star x y = .massless := by
          by_contra hne
          apply hmm
          cases ho : r.secondary.one
          · have hpo : r.primary.one = true := by rw [q1, ho]; rfl
            simp only [Role.star, ho, hpo, if_true, Bool.false_eq_true, if_false] at q2 hne
            exact ⟨hne, q2⟩
          · have hpo : r.primary.one = false := by rw [q1, ho]; rfl
            simp only [Role.star, ho, hpo, if_true, Bool.false_eq_true, if_false] at q2 hne
            exact ⟨q2, hne⟩
        have := (q5 this).1
        rw [hc] at this; cases this
    · rw [if_pos (by simp)]
      dsimp only
      exact ⟨d, hdco _ _ _ hc⟩
  obtain ⟨d', hp⟩ := hpri
  unfold run
  rw [hx, hy, hr]
  dsimp only
  rw [hs]
  dsimp only
  rw [hp]
  dsimp only
  exact ⟨_, if_neg (by simp)⟩

/-- A binary of two main-sequence stars, tracks of the stars' own masses. -/
def exBin (x y : Star) (e : Ev) : Bin :=
  { s1 := .st x, s2 := .st y, m1 := 20, m2 := 8, event := e, time := 5, maxTime := 100, old1 := none, old2 := none,
    grid := fun h => if h then (1 / 2, 300) else (1 / 2, 100), search := fun one h => .ok (some (if one then 20 else 8, 3, h)) }

example : run (exBin .hCoreH .hCoreH .none) true true true =
    .ok ⟨⟨⟨true, false, true⟩, ⟨false, false, true⟩, false⟩, some (8, 3), some (20, 3), true, true, .Match12, 1⟩ := by decide +kernel
example : run (exBin .BH .hCoreH .none) true true true =
    .ok ⟨⟨⟨true, true, true⟩, ⟨false, false, true⟩, false⟩, some (8, 3), some (8, 3), false, true, .Match2, 1⟩ := by decide +kernel

/-- **C74** (refuted): "either one or both stars can be matched".  Asking for the primary alone stops with an
unassigned-variable error if the primary is a compact object. -/
theorem C74_primary_alone_violated (b : Bin) (rec : Bool) (x y : Star) (hx : b.s1 = .st x) (hy : b.s2 = .st y)
    (hc : compact x = true) (hn : compact y = false) (hy0 : y ≠ .massless) :
    run b false true rec = .error (.unbound, false) := by
  have hm : ¬ (x = .massless ∧ y = .massless) := fun h => hy0 h.2
  obtain ⟨r, hr, q1, q2, q3, q4, q5, q6, q7, -⟩ := C74_roles x y hm
  have hx0 : x ≠ .massless := by rintro rfl; revert hc; decide
  have hpc : compact (r.primary.star x y) = true := q7 (by simp [bothThere, hx0, hy0]) (by simp [hc, hn])
  have hpm : r.primary.star x y ≠ .massless := by intro e; rw [e] at hpc; revert hpc; decide
  have hco : r.primary.co = true := (q6 hpm).1.trans hpc
  unfold run
  rw [hx, hy, hr]
  simp [secondary, primary, hco]

example : run (exBin .BH .hCoreH .none) false true false = .error (.unbound, false) := by decide +kernel

/-- **C74** (which companion a common envelope corrects): the companion (star 2 if star 1 is the donor) is the star matched
exactly when both are of the same type and star 1 is the donor, or the companion has hydrogen and the donor has none. -/
theorem C74_common_envelope_partial (b : Bin) (rec donorOne : Bool) (o : Out) (x y : Star) (hx : b.s1 = .st x) (hy : b.s2 = .st y)
    (hxc : compact x = false) (hyc : compact y = false) (hb : bothThere x y = true) (h : ceMatch b rec = .ok o) :
    o.star = (!donorOne) ↔
      (hydrogen x = hydrogen y ∧ donorOne = true) ∨
      (hydrogen x ≠ hydrogen y ∧ hydrogen (if donorOne then y else x) = true) := by
  obtain ⟨r, prev, hr, ho, -⟩ := run_ok h
  rw [hx, hy] at hr
  have hm : ¬ (x = .massless ∧ y = .massless) := by rintro ⟨rfl, rfl⟩; revert hb; decide
  obtain ⟨r', hr', -, -, -, -, -, -, -, q8, q9, -⟩ := C74_roles x y hm
  rw [hr] at hr'; cases hr'
  unfold Out.star
  rw [ho]
  by_cases hh : hydrogen x = hydrogen y
  · have := q9 hb (by simp [sameType, hxc, hyc, hh])
    rw [this]
    cases donorOne <;> simp [hh]
  · have q := q8 hb hxc hyc hh
    simp only [hh, false_and, ne_eq, not_false_eq_true, true_and, false_or]
    unfold Role.star at q
    cases hs : r.secondary.one <;> rw [hs] at q <;> cases donorOne <;>
      simp only [if_true, if_false, Bool.false_eq_true, Bool.not_true, Bool.not_false] at q ⊢ <;>
      simp [q] <;> (try (revert hh q; cases hydrogen x <;> cases hydrogen y <;> simp))

example : (ceMatch (exBin .hShellH .hCoreH .oCE1) false).toOption.map Out.star = some false := by decide +kernel

/-- **C74** (refuted): "in a common envelope the companion's radius is corrected by matching the companion".  If star 2 is the
donor and both stars have hydrogen, the donor is matched instead, and the companion is left with the interpolator (if any) of
an earlier step. -/
theorem C74_common_envelope_violated (b : Bin) (rec : Bool) (o : Out) (x y : Star) (hx : b.s1 = .st x) (hy : b.s2 = .st y)
    (hxh : hydrogen x = true) (hyh : hydrogen y = true) (h : ceMatch b rec = .ok o) :
    o.star = false ∧ o.hit1 = false ∧ o.hit2 = true ∧ o.pri = b.old1 := by
  obtain ⟨r, prev, hr, ho, hs, hp, -, -, h1, h2, -, -⟩ := run_ok h
  rw [hx, hy] at hr
  have hxc : compact x = false := by revert hxh; cases x <;> decide
  have hyc : compact y = false := by revert hyh; cases y <;> decide
  have hx0 : x ≠ .massless := by rintro rfl; revert hxh; decide
  have hy0 : y ≠ .massless := by rintro rfl; revert hyh; decide
  obtain ⟨r', hr', q1, q2, q3, -, -, -, -, -, q9, -⟩ := C74_roles x y (fun hm => hx0 hm.1)
  rw [hr] at hr'; cases hr'
  have hso := q9 (by simp [bothThere, hx0, hy0]) (by simp [sameType, hxc, hyc, hxh, hyh])
  have hpo : r.primary.one = true := by rw [q1, hso]; rfl
  have hsc : r.secondary.co = false := by rw [q3]; simp [Role.star, hso, hyc]
  refine ⟨by unfold Out.star; rw [ho, hso], by rw [h1]; simp [hso], by rw [h2]; simp [hso, hsc], ?_⟩
  unfold primary at hp
  rw [if_neg (by simp)] at hp
  rw [← Except.ok.inj hp]; simp [Bin.old, hpo]

example : (ceMatch (exBin .hCoreH .hShellH .oCE2) false).toOption.map Out.star = some false := by decide +kernel

/-! ### The quantities compared -/

/-- Specification: the scale of each quantity. -/
def scaleOf (q : String) : ℚ := if q = "mass" then 20 else if q = "he_core_mass" then 10 else if q = "log_R" then 2 else 1

/-- A quantity has the same scale in each list it occurs in, and occurs at most once. -/
theorem C74_scales (l : Lst) : (∀ q n, (q, n) ∈ defaults l → n = scaleOf q) ∧ ((defaults l).map Prod.fst).Nodup ∧ ("he_core_mass", 10) ∈ defaults l := by
  refine ⟨?_, ?_, ?_⟩
  · intro q n h
    cases l <;> simp only [defaults, List.mem_cons, List.not_mem_nil, or_false, Prod.mk.injEq] at h <;>
      first
        | (rcases h with ⟨rfl, rfl⟩ | ⟨rfl, rfl⟩ | ⟨rfl, rfl⟩ | ⟨rfl, rfl⟩ <;> rfl)
        | (rcases h with ⟨rfl, rfl⟩ | ⟨rfl, rfl⟩ | ⟨rfl, rfl⟩ <;> rfl)
        | (rcases h with ⟨rfl, rfl⟩ | ⟨rfl, rfl⟩ <;> rfl)
  · cases l <;> decide
  · cases l <;> decide

/-- The mass taken for a star is its own. -/
theorem C74_own_mass (b : Bin) : b.mass true = b.m1 ∧ b.mass false = b.m2 := ⟨rfl, rfl⟩

end Verif.Match
