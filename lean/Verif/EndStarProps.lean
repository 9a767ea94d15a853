import Verif.EndStar
import Verif.SingleProps
import Mathlib.Data.List.Forall2
/-!
**C152** What a star is given at the end of its track: the values and the profile handed to the supernova.
-/
namespace Verif.EndStar
open Verif.Single

/-! ### The state of a profile at a fraction of the mass -/

/-- The nodes of a column, from the centre outwards. -/
noncomputable def nodes (p : List Row) (k : String) : List Interp.Node := p.reverse.map fun r => (r "mass" / surface p, r k)

/-- The state of a profile at a fraction of the mass. -/
noncomputable def state (p : List Row) (x : ℝ) : Row := fun k => Interp.seg (nodes p k) x

theorem nodes_incr {p : List Row} (h : Ordered p) (k : String) : Interp.Incr (nodes p k) := by
  have hd := coord_dec h
  unfold coord at hd
  unfold nodes Interp.Incr
  rw [List.pairwise_map] at hd ⊢
  rw [List.pairwise_reverse]
  exact hd

theorem seg_row (c : Row → ℝ) (x : ℝ) : ∀ (l : List Row) (p : Row), (p :: l).Pairwise (fun a b => c a < c b) → c p ≤ x → (∃ z ∈ p :: l, x ≤ c z) →
    ∃ a ∈ p :: l, ∃ b ∈ p :: l, ∃ t : ℝ, 0 ≤ t ∧ t ≤ 1 ∧ x = c a + t * (c b - c a) ∧
      (∀ k, Interp.seg ((p :: l).map fun r => (c r, r k)) x = a k + t * (b k - a k)) ∧ ∀ r ∈ p :: l, c r ≤ c a ∨ c b ≤ c r
  | [], p, _, h1, h2 => by
    obtain ⟨z, hz, h2⟩ := h2
    rw [List.mem_singleton] at hz
    subst hz
    refine ⟨z, by simp, z, by simp, 0, le_rfl, zero_le_one, by linarith, fun k => ?_, fun r hr => ?_⟩
    · simp [Interp.seg]
    · rw [List.mem_singleton] at hr
      exact Or.inl (by rw [hr])
  | q :: l, p, hp, h1, h2 => by
    have hh := List.pairwise_cons.1 hp
    by_cases hq : c q ≤ x
    · have h2' : ∃ z ∈ q :: l, x ≤ c z := by
        obtain ⟨z, hz, h2⟩ := h2
        rcases List.mem_cons.1 hz with rfl | hz
        · exact ⟨q, by simp, h2.trans (hh.1 q (by simp)).le⟩
        · exact ⟨z, hz, h2⟩
      obtain ⟨a, ha, b, hb, t, t0, t1, e, hk, hg⟩ := seg_row c x l q hh.2 hq h2'
      refine ⟨a, List.mem_cons_of_mem _ ha, b, List.mem_cons_of_mem _ hb, t, t0, t1, e, fun k => ?_, fun r hr => ?_⟩
      · rw [← hk k]
        simp only [List.map_cons, Interp.seg]
        rw [if_pos hq]
      · rcases List.mem_cons.1 hr with rfl | hr
        · exact Or.inl (hh.1 a ha).le
        · exact hg r hr
    · have hpq := hh.1 q (by simp)
      have hd : 0 < c q - c p := by linarith
      rw [not_le] at hq
      refine ⟨p, by simp, q, by simp, (x - c p) / (c q - c p), div_nonneg (by linarith) hd.le, ?_, ?_, fun k => ?_, fun r hr => ?_⟩
      · rw [div_le_one hd]
        linarith
      · field_simp
        ring
      · simp only [List.map_cons, Interp.seg]
        rw [if_neg (not_le.2 hq)]
        ring
      · rcases List.mem_cons.1 hr with rfl | hr
        · exact Or.inl le_rfl
        · rcases List.mem_cons.1 hr with rfl | hr
          · exact Or.inr le_rfl
          · exact Or.inr ((List.pairwise_cons.1 hh.2).1 r hr).le

/-- The fractions of the mass that occur in a profile. -/
def Inside (p : List Row) (x : ℝ) : Prop := (coord p).getLastD 0 ≤ x ∧ x ≤ 1

theorem first_node {p : List Row} (h : Ordered p) : ∃ r l, p.reverse = r :: l ∧ r "mass" / surface p = (coord p).getLastD 0 := by
  obtain ⟨hne, -, -⟩ := h
  obtain ⟨r, l, hr⟩ := List.exists_cons_of_ne_nil (show p.reverse ≠ [] by simpa using hne)
  refine ⟨r, l, hr, ?_⟩
  have hp : p = l.reverse ++ [r] := by rw [← List.reverse_reverse p, hr]; simp
  unfold coord
  rw [List.getLastD_eq_getLast?, List.getLast?_map]
  have : p.getLast? = some r := by rw [hp]; simp
  rw [this]
  rfl

theorem top_node {p : List Row} (h : Ordered p) : ∃ r ∈ p, r "mass" / surface p = 1 := by
  have hs := surface_pos h
  obtain ⟨hne, -, -⟩ := h
  obtain ⟨a, l, rfl⟩ := List.exists_cons_of_ne_nil hne
  exact ⟨a, by simp, div_self hs.ne'⟩

theorem state_at {p : List Row} (h : Ordered p) {x : ℝ} (hx : Inside p x) : At p (surface p) x (state p x) := by
  have hs := surface_pos h
  obtain ⟨r, l, hr, hc⟩ := first_node h
  obtain ⟨z, hz, h1⟩ := top_node h
  have hd := nodes_incr h "mass"
  unfold nodes Interp.Incr at hd
  rw [List.pairwise_map] at hd
  obtain ⟨a, ha, b, hb, t, t0, t1, e, hk, hg⟩ := seg_row (fun r => r "mass" / surface p) x l r (by rw [← hr]; exact hd) (by rw [hc]; exact hx.1)
    ⟨z, by rw [← hr]; simpa using hz, by rw [h1]; exact hx.2⟩
  rw [← hr] at ha hb hg hk
  refine ⟨a, by simpa using ha, b, by simpa using hb, t, t0, t1, ?_, hk, fun c hc => ?_⟩
  · rw [e]
    field_simp
  · rcases hg c (by simpa using hc) with h | h
    · exact Or.inl ((div_le_div_iff_of_pos_right hs).1 h)
    · exact Or.inr ((div_le_div_iff_of_pos_right hs).1 h)

theorem state_mass {p : List Row} (h : Ordered p) {x : ℝ} (hx : Inside p x) : state p x "mass" = x * surface p := by
  obtain ⟨a, -, b, -, t, -, -, e, hk, -⟩ := state_at h hx
  rw [e, hk]

theorem state_own {p : List Row} (h : Ordered p) {r : Row} (hr : r ∈ p) (k : String) : state p (r "mass" / surface p) k = r k :=
  Interp.seg_mem (nodes_incr h k) (n := (r "mass" / surface p, r k)) (List.mem_map.2 ⟨r, by simpa using hr, rfl⟩)

theorem own_inside {p : List Row} (h : Ordered p) {r : Row} (hr : r ∈ p) : Inside p (r "mass" / surface p) :=
  coord_range h _ (List.mem_map.2 ⟨r, hr, rfl⟩)

/-- A column at the fractions of another profile which reaches less deep. -/
theorem resample_state (argsort : List Interp.Node → List Interp.Node) (hs : Interp.Sorts argsort) {p q : List Row} (hp : Ordered p) (hq : Ordered q)
    (hle : (coord p).getLastD 0 ≤ (coord q).getLastD 0) (k : String) :
    resample argsort (coord p) (p.map (· k)) (coord q) = .ok ((coord q).map fun x => state p x k) := by
  have hne : coord p ≠ [] := by
    obtain ⟨h, -, -⟩ := hp
    simpa [coord] using h
  have hnd : (coord p).Nodup := (coord_dec hp).imp fun h => h.ne'
  obtain ⟨o, ho, hi, hperm⟩ := Interp.C45_built argsort hs (coord p) (p.map (· k)) .absent none none (by simp [coord]) hne hnd (by simp)
  have hz : (coord p).zip (p.map (· k)) = p.map fun r => (r "mass" / surface p, r k) := by
    unfold coord
    rw [List.zip_map']
    rfl
  have hall : o.all = nodes p k := by
    refine Interp.incr_unique hi (nodes_incr hp k) (hperm.trans ?_)
    rw [hz]
    unfold nodes
    rw [List.map_reverse]
    exact (List.reverse_perm _).symm
  unfold resample
  rw [ho]
  dsimp only
  congr 1
  refine List.map_congr_left fun x hx => ?_
  obtain ⟨b1, b2⟩ := coord_range hq x hx
  obtain ⟨r, l, hr, hc⟩ := first_node hp
  obtain ⟨z, hz', h1⟩ := top_node hp
  have m1 : (r "mass" / surface p, r k) ∈ o.all := by
    rw [hall]
    exact List.mem_map.2 ⟨r, by rw [hr]; simp, rfl⟩
  have m2 : (z "mass" / surface p, z k) ∈ o.all := by
    rw [hall]
    exact List.mem_map.2 ⟨z, by simpa using hz', rfl⟩
  have r1 : o.node.1 ≤ x := by
    have := Interp.incr_first_le hi m1
    dsimp only at this
    rw [hc] at this
    linarith
  have r2 : x ≤ (o.all.getLast (by simp [Interp.Interp1d.all])).1 := by
    have := Interp.incr_le_last hi (by simp [Interp.Interp1d.all]) m2
    dsimp only at this
    rw [h1] at this
    linarith
  rw [Interp.call_inside o x r1 r2, hall]
  rfl

theorem coord_map (p : List Row) (f : ℝ → ℝ) : (coord p).map f = p.map fun r => f (r "mass" / surface p) := by
  unfold coord
  rw [List.map_map]
  rfl

theorem column_own {p : List Row} (h : Ordered p) (k : String) : p.map (· k) = (coord p).map fun x => state p x k := by
  rw [coord_map]
  exact List.map_congr_left fun r hr => (state_own h hr k).symm

theorem zip_states (w : ℝ) (f g : ℝ → ℝ) (l : List ℝ) : List.zipWith (lerp w) (l.map f) (l.map g) = l.map fun x => lerp w (f x) (g x) := by
  induction l with
  | nil => rfl
  | cons x l ih => simp only [List.map_cons, List.zipWith_cons_cons, ih]

/-- What `get_profile` returns between two masses of the grid. -/
theorem getProfile_between (argsort : List Interp.Node → List Interp.Node) (hs : Interp.Sorts argsort) (g : List Run) (m : ℝ) (hm : m ∉ masses g)
    (h1 : ∃ r ∈ g, r.mass < m) (h2 : ∃ r ∈ g, m < r.mass) (hp : ∀ r ∈ g, Ordered r.profile) : ∃ lo hi r, Neighbours g m lo hi ∧ (r = lo ∨ r = hi) ∧
      (∀ c ∈ r.profile, Inside lo.profile (c "mass" / surface r.profile) ∧ Inside hi.profile (c "mass" / surface r.profile)) ∧
      ∀ key, getProfile argsort g key m =
        .ok (r.profile.map fun c => lerp ((m - lo.mass) / (hi.mass - lo.mass)) (state lo.profile (c "mass" / surface r.profile) key)
          (state hi.profile (c "mass" / surface r.profile) key), r.profile) := by
  obtain ⟨lo, hi, hn, hb, ha⟩ := neighbours hm h1 h2
  have pl := hp lo hn.lo_mem
  have ph := hp hi hn.hi_mem
  by_cases hc : (coord lo.profile).getLastD 0 < (coord hi.profile).getLastD 0
  · refine ⟨lo, hi, hi, hn, Or.inr rfl, fun c hcm => ?_, fun key => ?_⟩
    · have := own_inside ph hcm
      exact ⟨⟨hc.le.trans this.1, this.2⟩, this⟩
    · unfold getProfile
      rw [find_none.2 hm]
      dsimp only
      rw [hb, ha]
      dsimp only
      rw [hn.lo_first, hn.hi_first]
      dsimp only
      rw [if_pos hc, resample_state argsort hs pl ph hc.le]
      dsimp only
      rw [column_own ph, zip_states, coord_map]
  · refine ⟨lo, hi, lo, hn, Or.inl rfl, fun c hcm => ?_, fun key => ?_⟩
    · have := own_inside pl hcm
      exact ⟨this, ⟨(not_lt.1 hc).trans this.1, this.2⟩⟩
    · unfold getProfile
      rw [find_none.2 hm]
      dsimp only
      rw [hb, ha]
      dsimp only
      rw [hn.lo_first, hn.hi_first]
      dsimp only
      rw [if_neg hc, resample_state argsort hs ph pl (not_lt.1 hc)]
      dsimp only
      rw [column_own pl, zip_states, coord_map]

/-! ### Filling the profile -/

theorem put_map (key : String) (P : List Row) (f : Row → Row) (h : Row → ℝ) :
    put key (P.map f) (P.map h) = P.map fun r k => if k = key then h r else f r k := by
  unfold put
  induction P with
  | nil => rfl
  | cons a P ih => simp only [List.map_cons, List.zipWith_cons_cons, ih]

theorem fill_map (argsort : List Interp.Node → List Interp.Node) (g : List Run) (m : ℝ) (P old : List Row) (col : String → Row → ℝ) : ∀ (ks : List String) (f : Row → Row),
    (∀ k ∈ ks, column argsort g k m = .ok (P.map (col k), old)) → fill argsort g m ks (P.map f) = .ok (P.map fun r k => if k ∈ ks then col k r else f r k)
  | [], f, _ => by simp [fill]
  | key :: ks, f, h => by
    rw [fill, h key (by simp)]
    dsimp only
    rw [put_map, fill_map argsort g m P old col ks _ fun k hk => h k (by simp [hk])]
    congr 1
    refine List.map_congr_left fun r _ => ?_
    funext k
    by_cases h1 : k ∈ ks
    · simp [h1]
    · by_cases h2 : k = key
      · subst h2; simp
      · simp [h1, h2]

theorem keys_known : ∀ k ∈ profileKeys, k ∈ Single.profileKeys := by decide +kernel

theorem column_known (argsort : List Interp.Node → List Interp.Node) (g : List Run) (m : ℝ) (k : String) (hk : k ∈ profileKeys) :
    column argsort g k m = getProfile argsort g k m := if_pos (keys_known k hk)

theorem starProfile_map (argsort : List Interp.Node → List Interp.Node) (gs : Grids) (s : Star) (P : List Row) (col : String → Row → ℝ)
    (h : ∀ k, getProfile argsort (gs.of s.htrack) k s.m0 = .ok (P.map (col k), P)) :
    starProfile argsort gs s = .ok { s with profile := some (P.map fun r k => if k = "omega" then s.omega else if k ∈ profileKeys then col k r else r k) } := by
  unfold starProfile
  rw [column_known _ _ _ _ (by decide), h]
  dsimp only
  have := fill_map argsort (gs.of s.htrack) s.m0 P P col profileKeys id fun k hk => by rw [column_known _ _ _ _ hk, h]
  rw [List.map_id] at this
  rw [this]
  dsimp only
  rw [List.map_map]
  have e : put "omega" (P.map fun r k => if k ∈ profileKeys then col k r else id r k) (P.map ((fun _ => s.omega) ∘ fun r k => if k ∈ profileKeys then col k r else id r k)) =
      P.map fun r k => if k = "omega" then s.omega else if k ∈ profileKeys then col k r else r k := put_map _ _ _ _
  rw [e]

/-! ### The profile -/

/-- A cell of the new profile: each column on the line between the states of the two neighbours at the same fraction of the mass, the angular
velocity that of the star, the other columns those of one neighbour. -/
structure Cell (lo hi : Run) (m omega x : ℝ) (old new : Row) : Prop where
  between : ∃ l h : Row, At lo.profile (surface lo.profile) x l ∧ At hi.profile (surface hi.profile) x h ∧
    ∀ k ∈ profileKeys, (new k - l k) * (hi.mass - lo.mass) = (h k - l k) * (m - lo.mass)
  rotation : new "omega" = omega
  other : ∀ k, k ∉ profileKeys → k ≠ "omega" → new k = old k

/-- The grid is usable at the mass of the star. -/
structure Usable (g : List Run) (m : ℝ) : Prop where
  absent : m ∉ masses g
  lower : ∃ r ∈ g, r.mass < m
  higher : ∃ r ∈ g, m < r.mass
  ordered : ∀ r ∈ g, Ordered r.profile

theorem omega_other : "omega" ∉ profileKeys := by decide +kernel

theorem profile_between (argsort : List Interp.Node → List Interp.Node) (hs : Interp.Sorts argsort) (gs : Grids) (s : Star) (hu : Usable (gs.of s.htrack) s.m0) :
    ∃ lo hi r, Neighbours (gs.of s.htrack) s.m0 lo hi ∧ (r = lo ∨ r = hi) ∧
      (∀ c ∈ r.profile, Inside lo.profile (c "mass" / surface r.profile) ∧ Inside hi.profile (c "mass" / surface r.profile)) ∧
      starProfile argsort gs s = .ok { s with profile := some (r.profile.map fun c k => if k = "omega" then s.omega else if k ∈ profileKeys then
        lerp ((s.m0 - lo.mass) / (hi.mass - lo.mass)) (state lo.profile (c "mass" / surface r.profile) k) (state hi.profile (c "mass" / surface r.profile) k) else c k) } := by
  obtain ⟨lo, hi, r, hn, hr, hin, hg⟩ := getProfile_between argsort hs _ _ hu.absent hu.lower hu.higher hu.ordered
  exact ⟨lo, hi, r, hn, hr, hin, starProfile_map argsort gs s r.profile (fun k c => lerp _ (state lo.profile (c "mass" / surface r.profile) k)
    (state hi.profile (c "mass" / surface r.profile) k)) hg⟩

/-- **C152** Between two masses of its grid, a star is given a profile with as many cells as that of one of the two neighbours, in which every column lies on the
line between the states of both neighbours at the same fraction of the mass, and the star rotates like a solid body; nothing else of the star changes. -/
theorem C152_profile (argsort : List Interp.Node → List Interp.Node) (hs : Interp.Sorts argsort) (gs : Grids) (s : Star) (hu : Usable (gs.of s.htrack) s.m0) :
    ∃ lo hi r new, Neighbours (gs.of s.htrack) s.m0 lo hi ∧ (r = lo ∨ r = hi) ∧ starProfile argsort gs s = .ok { s with profile := some new } ∧
      List.Forall₂ (fun old c => Cell lo hi s.m0 s.omega (old "mass" / surface r.profile) old c) r.profile new := by
  obtain ⟨lo, hi, r, hn, hr, hin, hg⟩ := profile_between argsort hs gs s hu
  refine ⟨lo, hi, r, _, hn, hr, hg, ?_⟩
  rw [List.forall₂_map_right_iff, List.forall₂_same]
  intro c hc
  refine ⟨⟨_, _, state_at (hu.ordered lo hn.lo_mem) (hin c hc).1, state_at (hu.ordered hi hn.hi_mem) (hin c hc).2, fun k hk => ?_⟩, by rw [if_pos rfl], fun k hk ho => ?_⟩
  · have hd : hi.mass - lo.mass ≠ 0 := by have := hn.lo_lt; have := hn.lt_hi; intro h; linarith
    rw [if_neg (show ¬ k = "omega" from fun h => omega_other (h ▸ hk)), if_pos hk]
    unfold lerp
    field_simp
    ring
  · rw [if_neg ho, if_neg hk]

/-- **C152** At a mass of the grid the star is given the profile of the run itself, but for the rotation. -/
theorem C152_profile_own (argsort : List Interp.Node → List Interp.Node) (gs : Grids) (s : Star) (r : Run) (hr : find (gs.of s.htrack) s.m0 = some r) :
    starProfile argsort gs s = .ok { s with profile := some (r.profile.map fun c k => if k = "omega" then s.omega else c k) } := by
  rw [starProfile_map argsort gs s r.profile (fun k c => c k) fun k => by unfold getProfile; rw [hr]]
  congr 4
  funext c k
  by_cases h : k = "omega"
  · rw [if_pos h, if_pos h]
  · rw [if_neg h, if_neg h]
    split <;> rfl

theorem at_range {p : List Row} {top x : ℝ} {row : Row} (h : At p top x row) {k : String} {a b : ℝ} (hk : ∀ c ∈ p, a ≤ c k ∧ c k ≤ b) : a ≤ row k ∧ row k ≤ b := by
  obtain ⟨u, hu, v, hv, t, t0, t1, -, e, -⟩ := h
  obtain ⟨u1, u2⟩ := hk u hu
  obtain ⟨v1, v2⟩ := hk v hv
  rw [e]
  constructor <;> nlinarith

theorem cell_lerp {lo hi : Run} {m l h y : ℝ} (h1 : lo.mass < m) (h2 : m < hi.mass) (e : (y - l) * (hi.mass - lo.mass) = (h - l) * (m - lo.mass)) :
    ∃ w : ℝ, w = (m - lo.mass) / (hi.mass - lo.mass) ∧ 0 < w ∧ w < 1 ∧ y = lerp w l h := by
  obtain ⟨w0, w1⟩ := weight_pos h1 h2
  refine ⟨_, rfl, w0, w1, ?_⟩
  have hd : hi.mass - lo.mass ≠ 0 := by intro h; linarith
  unfold lerp
  field_simp
  linarith

/-- **C152** Every column of the new profile stays in any range which holds for all cells of all runs of the grid. -/
theorem C152_range (argsort : List Interp.Node → List Interp.Node) (hs : Interp.Sorts argsort) (gs : Grids) (s : Star) (hu : Usable (gs.of s.htrack) s.m0)
    (k : String) (hk : k ∈ profileKeys) (a b : ℝ) (hr : ∀ r ∈ gs.of s.htrack, ∀ c ∈ r.profile, a ≤ c k ∧ c k ≤ b) :
    ∃ new, starProfile argsort gs s = .ok { s with profile := some new } ∧ new ≠ [] ∧ ∀ c ∈ new, a ≤ c k ∧ c k ≤ b := by
  obtain ⟨lo, hi, r, new, hn, hrr, hg, hf⟩ := C152_profile argsort hs gs s hu
  refine ⟨new, hg, ?_, fun c hc => ?_⟩
  · rintro rfl
    have := List.forall₂_nil_right_iff.1 hf
    have hne : r.profile ≠ [] := by
      rcases hrr with rfl | rfl
      · exact (hu.ordered _ hn.lo_mem).1
      · exact (hu.ordered _ hn.hi_mem).1
    exact hne this
  · obtain ⟨i, hi', rfl⟩ := List.mem_iff_getElem.1 hc
    obtain ⟨⟨l, h, hl, hh, e⟩, -, -⟩ := (List.forall₂_iff_get.1 hf).2 i (by rw [hf.length_eq]; exact hi') hi'
    obtain ⟨w, -, w0, w1, ey⟩ := cell_lerp hn.lo_lt hn.lt_hi (e k hk)
    obtain ⟨l1, l2⟩ := at_range hl (hr lo hn.lo_mem)
    obtain ⟨h1, h2⟩ := at_range hh (hr hi hn.hi_mem)
    rw [List.get_eq_getElem] at ey
    rw [ey]
    unfold lerp
    constructor <;> nlinarith

/-- **C152** If in all cells of the grid the mass fractions of hydrogen, helium and metals add up to one, they do so in the new profile. -/
theorem C152_fractions (argsort : List Interp.Node → List Interp.Node) (hs : Interp.Sorts argsort) (gs : Grids) (s : Star) (hu : Usable (gs.of s.htrack) s.m0)
    (hr : ∀ r ∈ gs.of s.htrack, ∀ c ∈ r.profile, c "x_mass_fraction_H" + c "y_mass_fraction_He" + c "z_mass_fraction_metals" = 1) :
    ∃ new, starProfile argsort gs s = .ok { s with profile := some new } ∧
      ∀ c ∈ new, c "x_mass_fraction_H" + c "y_mass_fraction_He" + c "z_mass_fraction_metals" = 1 := by
  obtain ⟨lo, hi, r, new, hn, hrr, hg, hf⟩ := C152_profile argsort hs gs s hu
  refine ⟨new, hg, fun c hc => ?_⟩
  obtain ⟨i, hi', rfl⟩ := List.mem_iff_getElem.1 hc
  obtain ⟨⟨l, h, ⟨a, ha, b, hb, t, -, -, -, el, -⟩, ⟨a', ha', b', hb', t', -, -, -, eh, -⟩, e⟩, -, -⟩ :=
    (List.forall₂_iff_get.1 hf).2 i (by rw [hf.length_eq]; exact hi') hi'
  simp only [List.get_eq_getElem] at e
  obtain ⟨w, rfl, -, -, e1⟩ := cell_lerp hn.lo_lt hn.lt_hi (e "x_mass_fraction_H" (by decide))
  obtain ⟨w, rfl, -, -, e2⟩ := cell_lerp hn.lo_lt hn.lt_hi (e "y_mass_fraction_He" (by decide))
  obtain ⟨w, rfl, -, -, e3⟩ := cell_lerp hn.lo_lt hn.lt_hi (e "z_mass_fraction_metals" (by decide))
  have sa := hr lo hn.lo_mem a ha
  have sb := hr lo hn.lo_mem b hb
  have sa' := hr hi hn.hi_mem a' ha'
  have sb' := hr hi hn.hi_mem b' hb'
  rw [e1, e2, e3, el, el, el, eh, eh, eh]
  generalize (s.m0 - lo.mass) / (hi.mass - lo.mass) = w
  have sl : a "x_mass_fraction_H" + t * (b "x_mass_fraction_H" - a "x_mass_fraction_H") + (a "y_mass_fraction_He" + t * (b "y_mass_fraction_He" - a "y_mass_fraction_He")) +
      (a "z_mass_fraction_metals" + t * (b "z_mass_fraction_metals" - a "z_mass_fraction_metals")) = 1 := by linear_combination (1 - t) * sa + t * sb
  have sh : a' "x_mass_fraction_H" + t' * (b' "x_mass_fraction_H" - a' "x_mass_fraction_H") + (a' "y_mass_fraction_He" + t' * (b' "y_mass_fraction_He" - a' "y_mass_fraction_He")) +
      (a' "z_mass_fraction_metals" + t' * (b' "z_mass_fraction_metals" - a' "z_mass_fraction_metals")) = 1 := by linear_combination (1 - t') * sa' + t' * sb'
  unfold lerp
  linear_combination (1 - w) * sl + w * sh

/-- **C152** The masses of the new profile decrease inwards and are positive, and the mass at its surface lies on the line between those of the neighbours. -/
theorem C152_mass (argsort : List Interp.Node → List Interp.Node) (hs : Interp.Sorts argsort) (gs : Grids) (s : Star) (hu : Usable (gs.of s.htrack) s.m0) :
    ∃ lo hi new, Neighbours (gs.of s.htrack) s.m0 lo hi ∧ starProfile argsort gs s = .ok { s with profile := some new } ∧ Ordered new ∧
      (surface new - surface lo.profile) * (hi.mass - lo.mass) = (surface hi.profile - surface lo.profile) * (s.m0 - lo.mass) := by
  obtain ⟨lo, hi, r, hn, hr, hin, hg⟩ := profile_between argsort hs gs s hu
  obtain ⟨w0, w1⟩ := weight_pos hn.lo_lt hn.lt_hi
  have pl := hu.ordered lo hn.lo_mem
  have ph := hu.ordered hi hn.hi_mem
  have pr : Ordered r.profile := by rcases hr with rfl | rfl <;> assumption
  have sl := surface_pos pl
  have sh := surface_pos ph
  have sr := surface_pos pr
  have hd : hi.mass - lo.mass ≠ 0 := by have := hn.lo_lt; have := hn.lt_hi; intro h; linarith
  refine ⟨lo, hi, _, hn, hg, ?_, ?_⟩
  all_goals
    set w := (s.m0 - lo.mass) / (hi.mass - lo.mass) with hw
    have hmass : ∀ c ∈ r.profile, (fun c : Row => lerp w (state lo.profile (c "mass" / surface r.profile) "mass") (state hi.profile (c "mass" / surface r.profile) "mass")) c =
        c "mass" / surface r.profile * lerp w (surface lo.profile) (surface hi.profile) := by
      intro c hc
      dsimp only
      rw [state_mass pl (hin c hc).1, state_mass ph (hin c hc).2]
      unfold lerp
      ring
    have hpos : 0 < lerp w (surface lo.profile) (surface hi.profile) := by
      unfold lerp
      nlinarith
  · refine ⟨by simpa using pr.1, ?_, ?_⟩
    · rw [List.map_map, List.pairwise_map]
      have := pr.2.1
      rw [List.pairwise_map] at this
      refine (List.Pairwise.and_mem.1 this).imp ?_
      rintro a b ⟨ha, hb, hab⟩
      have e1 := hmass a ha
      have e2 := hmass b hb
      dsimp only at e1 e2
      simp only [Function.comp_apply]
      rw [if_neg (by decide), if_pos (by decide), if_neg (by decide), if_pos (by decide), e1, e2]
      exact mul_lt_mul_of_pos_right (div_lt_div_of_pos_right hab sr) hpos
    · intro x hx
      obtain ⟨c, hc, rfl⟩ := List.mem_map.1 hx
      have e1 := hmass c hc
      dsimp only at e1 ⊢
      rw [if_neg (by decide), if_pos (by decide), e1]
      exact mul_pos (div_pos (pr.2.2 c hc) sr) hpos
  · obtain ⟨a, l, hal⟩ := List.exists_cons_of_ne_nil pr.1
    have e1 := hmass a (by rw [hal]; simp)
    have ea : a "mass" / surface r.profile = 1 := by
      have : surface r.profile = a "mass" := by rw [hal]; rfl
      rw [this] at sr ⊢
      exact div_self sr.ne'
    dsimp only at e1
    have : surface (r.profile.map fun c k => if k = "omega" then s.omega else if k ∈ profileKeys then
        lerp w (state lo.profile (c "mass" / surface r.profile) k) (state hi.profile (c "mass" / surface r.profile) k) else c k) =
        lerp w (surface lo.profile) (surface hi.profile) := by
      have hsurf : ∀ f : Row → Row, surface (r.profile.map f) = f a "mass" := by
        intro f
        rw [hal]
        rfl
      rw [hsurf]
      rw [if_neg (by decide), if_pos (by decide), e1, ea, one_mul]
    rw [this, hw]
    unfold lerp
    field_simp
    ring

/-- A column grows outwards, or stays. -/
def Outwards (p : List Row) (k : String) : Prop := (p.map (· k)).Pairwise (· ≥ ·)

theorem state_mono {p : List Row} (h : Ordered p) {k : String} (hk : Outwards p k) {x y : ℝ} (hx : Inside p x) (hy : Inside p y) (hxy : x ≤ y) : state p x k ≤ state p y k := by
  obtain ⟨r, l, hr, hc⟩ := first_node h
  obtain ⟨z, hz, h1⟩ := top_node h
  have hi := nodes_incr h k
  have hm : (nodes p k).Pairwise fun a b => a.2 ≤ b.2 := by
    unfold nodes
    rw [List.pairwise_map, List.pairwise_reverse]
    unfold Outwards at hk
    rw [List.pairwise_map] at hk
    exact hk
  have hn : nodes p k = (r "mass" / surface p, r k) :: l.map fun r => (r "mass" / surface p, r k) := by
    unfold nodes
    rw [hr]
    rfl
  have := (Interp.seg_mono hi hm _ _ hn).2 x y (by dsimp only; rw [hc]; exact hx.1) hxy
  refine this (le_trans ?_ (Interp.incr_le_last hi (by rw [hn]; simp) (n := (z "mass" / surface p, z k)) (List.mem_map.2 ⟨z, by simpa using hz, rfl⟩)))
  dsimp only
  rw [h1]
  exact hy.2

/-- **C152** If a column, as the radius, never decreases outwards in any run of the grid, it does not do so in the new profile. -/
theorem C152_outwards (argsort : List Interp.Node → List Interp.Node) (hs : Interp.Sorts argsort) (gs : Grids) (s : Star) (hu : Usable (gs.of s.htrack) s.m0)
    (k : String) (hk : k ∈ profileKeys) (hr : ∀ r ∈ gs.of s.htrack, Outwards r.profile k) :
    ∃ new, starProfile argsort gs s = .ok { s with profile := some new } ∧ Outwards new k := by
  obtain ⟨lo, hi, r, hn, hrr, hin, hg⟩ := profile_between argsort hs gs s hu
  obtain ⟨w0, w1⟩ := weight_pos hn.lo_lt hn.lt_hi
  have pl := hu.ordered lo hn.lo_mem
  have ph := hu.ordered hi hn.hi_mem
  have pr : Ordered r.profile := by rcases hrr with rfl | rfl <;> assumption
  refine ⟨_, hg, ?_⟩
  have ho : ¬ k = "omega" := fun h => omega_other (h ▸ hk)
  unfold Outwards
  rw [List.map_map, List.pairwise_map]
  have := pr.2.1
  rw [List.pairwise_map] at this
  refine (List.Pairwise.and_mem.1 this).imp ?_
  rintro a b ⟨ha, hb, hab⟩
  have hle : b "mass" / surface r.profile ≤ a "mass" / surface r.profile := (div_lt_div_of_pos_right hab (surface_pos pr)).le
  have e1 := state_mono pl (hr lo hn.lo_mem) (hin b hb).1 (hin a ha).1 hle
  have e2 := state_mono ph (hr hi hn.hi_mem) (hin b hb).2 (hin a ha).2 hle
  simp only [Function.comp_apply]
  rw [if_neg ho, if_pos hk, if_neg ho, if_pos hk]
  unfold lerp
  generalize (s.m0 - lo.mass) / (hi.mass - lo.mass) = w at w0 w1 ⊢
  nlinarith

/-! ### Final values -/

theorem names_known : ∀ k ∈ finalKeys, ((chars! "S1_") ++ k.toList) ∈ Single.finalKeys ∧
    decode ((chars! "S1_") ++ k.toList) = some (.plain ((chars! "S1_") ++ k.toList)) := by
  decide +kernel

theorem lookup_known (g : List Run) (m : ℝ) {k : String} (hk : k ∈ finalKeys) :
    lookup g ((chars! "S1_") ++ k.toList) m = getFinal g (.plain ((chars! "S1_") ++ k.toList)) m := by
  obtain ⟨h1, h2⟩ := names_known k hk
  unfold lookup
  rw [if_pos h1, h2]

theorem setAll_ok (g : List Run) (m : ℝ) : ∀ (ks : List String) (s t : Star), setAll g m ks s = .ok t → ks.Nodup →
    t.m0 = s.m0 ∧ t.htrack = s.htrack ∧ t.omega = s.omega ∧ t.profile = s.profile ∧ (∀ k ∉ ks, t.attr k = s.attr k) ∧
      ∀ k ∈ ks, lookup g ((chars! "S1_") ++ k.toList) m = .ok (t.attr k)
  | [], s, t, h, _ => by
    simp only [setAll, Except.ok.injEq] at h
    subst h
    simp
  | key :: ks, s, t, h, hd => by
    rw [List.nodup_cons] at hd
    rw [setAll] at h
    cases hl : lookup g ((chars! "S1_") ++ key.toList) m with
    | error e => rw [hl] at h; simp at h
    | ok v =>
      rw [hl] at h
      dsimp only at h
      obtain ⟨h1, h2, h3, h4, h5, h6⟩ := setAll_ok g m ks _ t h hd.2
      refine ⟨h1, h2, h3, h4, fun k hk => ?_, fun k hk => ?_⟩
      · rw [List.mem_cons, not_or] at hk
        rw [h5 k hk.2]
        exact if_neg hk.1
      · rcases List.mem_cons.1 hk with rfl | hk
        · rw [h5 k hd.1, hl]
          simp [Star.set]
        · exact h6 k hk

theorem setAll_total (g : List Run) (m : ℝ) : ∀ (ks : List String) (s : Star), (∀ k ∈ ks, ∃ v, lookup g ((chars! "S1_") ++ k.toList) m = .ok v) → ∃ t, setAll g m ks s = .ok t
  | [], s, _ => ⟨s, rfl⟩
  | key :: ks, s, h => by
    obtain ⟨v, hv⟩ := h key (by simp)
    rw [setAll, hv]
    exact setAll_total g m ks _ fun k hk => h k (by simp [hk])

/-- **C152** The ten final values of the star are those of the grid of its track at the mass of its track; nothing else of the star changes. -/
theorem C152_final_values (gs : Grids) (s t : Star) (h : finalValues gs s = .ok t) :
    (∀ k ∈ finalKeys, getFinal (if s.htrack then gs.hRich else gs.strippedHe) (.plain ((chars! "S1_") ++ k.toList)) s.m0 = .ok (t.attr k)) ∧
      (∀ k ∉ finalKeys, t.attr k = s.attr k) ∧ t.m0 = s.m0 ∧ t.htrack = s.htrack ∧ t.omega = s.omega ∧ t.profile = s.profile := by
  obtain ⟨h1, h2, h3, h4, h5, h6⟩ := setAll_ok _ _ _ _ _ h (by decide +kernel)
  exact ⟨fun k hk => by rw [← lookup_known _ _ hk]; exact h6 k hk, h5, h1, h2, h3, h4⟩

/-- **C152** At a mass of the grid the ten final values are those of the run. -/
theorem C152_final_values_own (gs : Grids) (s : Star) (r : Run) (hr : find (gs.of s.htrack) s.m0 = some r) :
    ∃ t, finalValues gs s = .ok t ∧ ∀ k ∈ finalKeys, t.attr k = r.final ((chars! "S1_") ++ k.toList) := by
  have hm : s.m0 = r.mass := by
    have := List.find?_some hr
    simpa using (of_decide_eq_true this).symm
  obtain ⟨t, ht⟩ := setAll_total (gs.of s.htrack) s.m0 finalKeys s fun k hk => by
    rw [lookup_known _ _ hk, hm]
    exact ⟨_, (C90_final_own _ _ r (hm ▸ hr)).1⟩
  refine ⟨t, ht, fun k hk => ?_⟩
  have h1 := (C152_final_values gs s t ht).1 k hk
  have h2 := (C90_final_own (gs.of s.htrack) (.plain ((chars! "S1_") ++ k.toList)) r (hm ▸ hr)).1
  rw [← hm] at h2
  have h3 := h1.symm.trans h2
  simpa [Run.value] using h3

/-- **C152** If a final value is a number in the same range for all runs, it is given as a number in this range, between two masses of the grid. -/
theorem C152_final_values_range (gs : Grids) (s t : Star) (h : finalValues gs s = .ok t) (hm : s.m0 ∉ masses (gs.of s.htrack))
    (h1 : ∃ r ∈ gs.of s.htrack, r.mass < s.m0) (h2 : ∃ r ∈ gs.of s.htrack, s.m0 < r.mass) (k : String) (hk : k ∈ finalKeys) (a b : ℝ)
    (hr : ∀ r ∈ gs.of s.htrack, ∃ y, r.final ((chars! "S1_") ++ k.toList) = .num y ∧ a ≤ y ∧ y ≤ b) : ∃ y, t.attr k = .num y ∧ a ≤ y ∧ y ≤ b := by
  have hv : ∀ x ∈ masses (gs.of s.htrack), ∃ y, valueAt (gs.of s.htrack) (.plain ((chars! "S1_") ++ k.toList)) x = .num y ∧ a ≤ y ∧ y ≤ b := by
    intro x hx
    obtain ⟨r, hf, hr', -⟩ := find_mem hx
    obtain ⟨y, e, hy⟩ := hr r hr'
    refine ⟨y, ?_, hy⟩
    unfold valueAt
    rw [hf]
    exact e
  have nan : ∀ x ∈ masses (gs.of s.htrack), (valueAt (gs.of s.htrack) (.plain ((chars! "S1_") ++ k.toList)) x).isNan = false := by
    intro x hx
    obtain ⟨y, e, -⟩ := hv x hx
    rw [e]
    rfl
  obtain ⟨r1, m1, l1⟩ := h1
  obtain ⟨r2, m2, l2⟩ := h2
  have e1 : r1.mass ∈ masses (gs.of s.htrack) := List.mem_map_of_mem m1
  have e2 : r2.mass ∈ masses (gs.of s.htrack) := List.mem_map_of_mem m2
  obtain ⟨u, v, hu, hv', -, -, -, -, -, hnum, -⟩ := C90_final (gs.of s.htrack) (.plain ((chars! "S1_") ++ k.toList)) s.m0 hm ⟨_, e1, l1, nan _ e1⟩ ⟨_, e2, l2, nan _ e2⟩
  obtain ⟨yu, eu, u1, u2⟩ := hv u hu
  obtain ⟨yv, ev, v1, v2⟩ := hv v hv'
  obtain ⟨y, ey, -, y1, y2⟩ := hnum yu yv eu ev
  refine ⟨y, ?_, (le_min u1 v1).trans y1, y2.trans (max_le u2 v2)⟩
  have := (C152_final_values gs s t h).1 k hk
  have h3 := this.symm.trans ey
  simpa using h3

/-- **C152** At the end of its life a star gets its final values and its profile from the same grid; a star outside of the masses of its grid gets a `ValueError`. -/
theorem C152_end (argsort : List Interp.Node → List Interp.Node) (gs : Grids) (s t : Star) (h : endOfLife argsort gs s = .ok t) :
    ∃ u, finalValues gs s = .ok u ∧ starProfile argsort gs u = .ok t ∧ t.attr = u.attr ∧ t.m0 = s.m0 ∧ t.htrack = s.htrack ∧ t.omega = s.omega ∧
      ∃ p, t.profile = some p ∧ ∀ c ∈ p, c "omega" = s.omega := by
  unfold endOfLife at h
  cases hu : finalValues gs s with
  | error e => rw [hu] at h; simp at h
  | ok u =>
    rw [hu] at h
    dsimp only at h
    obtain ⟨-, -, h1, h2, h3, -⟩ := C152_final_values gs s u hu
    refine ⟨u, rfl, h, ?_⟩
    unfold starProfile at h
    cases hc : column argsort (gs.of u.htrack) "mass" u.m0 with
    | error e => rw [hc] at h; simp at h
    | ok q =>
      rw [hc] at h
      obtain ⟨q1, q2⟩ := q
      dsimp only at h
      cases hf : fill argsort (gs.of u.htrack) u.m0 profileKeys q2 with
      | error e => rw [hf] at h; simp at h
      | ok p =>
        rw [hf] at h
        simp only [Except.ok.injEq] at h
        subst h
        refine ⟨rfl, h1, h2, h3, _, rfl, fun c hc => ?_⟩
        have e := put_map "omega" p id (fun _ => u.omega)
        rw [List.map_id] at e
        rw [e] at hc
        obtain ⟨r, -, rfl⟩ := List.mem_map.1 hc
        dsimp only
        rw [if_pos rfl, h3]

theorem C152_outside (argsort : List Interp.Node → List Interp.Node) (gs : Grids) (s : Star)
    (h : (∀ r ∈ gs.of s.htrack, s.m0 < r.mass) ∨ ∀ r ∈ gs.of s.htrack, r.mass < s.m0) : endOfLife argsort gs s = .error .value := by
  have hn : find (gs.of s.htrack) s.m0 = none := by
    rw [find_none]
    intro hm
    obtain ⟨r, hr, e⟩ := List.mem_map.1 hm
    rcases h with h | h
    · have := h r hr; rw [e] at this; exact lt_irrefl _ this
    · have := h r hr; rw [e] at this; exact lt_irrefl _ this
  have hg : ∀ k, getFinal (gs.of s.htrack) k s.m0 = .error .value := by
    intro k
    unfold getFinal
    rw [hn]
    dsimp only
    rcases h with h | h
    · have : below (masses (gs.of s.htrack)) s.m0 = none := by
        rw [below_none]
        intro x hx
        obtain ⟨r, hr, rfl⟩ := List.mem_map.1 hx
        exact (h r hr).le
      rw [this]
    · have : above (masses (gs.of s.htrack)) s.m0 = none := by
        rw [above_none]
        intro x hx
        obtain ⟨r, hr, rfl⟩ := List.mem_map.1 hx
        exact (h r hr).le
      rw [this]
      cases below (masses (gs.of s.htrack)) s.m0 <;> rfl
  have : finalValues gs s = .error .value := by
    unfold finalValues
    rw [finalKeys, setAll, lookup_known _ _ (by decide), hg]
  unfold endOfLife
  rw [this]

/-! ### The mass of the star and its profile -/

theorem zip_last (f : Row → Row → ℝ) : ∀ (x y : List Row), x.length = y.length → ∀ a b, x.getLast? = some a → y.getLast? = some b → (List.zipWith f x y).getLast? = some (f a b)
  | [], _, _, a, b, h, _ => by simp at h
  | _ :: _, [], h, _, _, _, _ => by simp at h
  | [a], [b], _, _, _, h1, h2 => by simp at h1 h2; simp [h1, h2]
  | [_], _ :: _ :: _, h, _, _, _, _ => by simp at h
  | _ :: _ :: _, [_], h, _, _, _, _ => by simp at h
  | a :: a' :: x, b :: b' :: y, h, u, v, h1, h2 => by
    rw [List.getLast?_cons_cons] at h1 h2
    have := zip_last f (a' :: x) (b' :: y) (by simpa using h) u v h1 h2
    rw [List.zipWith_cons_cons, List.zipWith_cons_cons, List.getLast?_cons_cons, ← List.zipWith_cons_cons]
    exact this

/-- **C152** If in every run the last mass of the history is the mass at the surface of the profile, and all runs have as many rows, the last mass of the star's track is
the mass at the surface of its new profile. -/
theorem C152_surface (tol : ℝ) (argsort : List Interp.Node → List Interp.Node) (hs : Interp.Sorts argsort) (gs : Grids) (s : Star) (hu : Usable (gs.of s.htrack) s.m0)
    (hl : ∀ r ∈ gs.of s.htrack, ∃ a, r.rows.getLast? = some a ∧ a "star_mass" = surface r.profile)
    (hlen : ∀ r ∈ gs.of s.htrack, ∀ r' ∈ gs.of s.htrack, r.rows.length = r'.rows.length) (v : List ℝ) (hv : get tol (gs.of s.htrack) "mass" s.m0 = .ok v) :
    ∃ new, starProfile argsort gs s = .ok { s with profile := some new } ∧ v.getLast? = some (surface new) := by
  obtain ⟨lo, hi, new, hn, hg, -, hsurf⟩ := C152_mass argsort hs gs s hu
  refine ⟨new, hg, ?_⟩
  obtain ⟨lo', hi', hn', hg'⟩ := get_between tol (gs.of s.htrack) s.m0 hu.absent hu.lower hu.higher
  have uniq : ∀ r r' : Run, r.mass = r'.mass → find (gs.of s.htrack) r.mass = some r → find (gs.of s.htrack) r'.mass = some r' → r = r' := by
    intro r r' e h h'
    rw [e, h'] at h
    exact (Option.some.inj h).symm
  have el : lo' = lo := by
    refine uniq _ _ ?_ hn'.lo_first hn.lo_first
    have a1 := hn.gap lo' hn'.lo_mem
    have a2 := hn'.gap lo hn.lo_mem
    have := hn.lt_hi; have := hn'.lt_hi; have := hn.lo_lt; have := hn'.lo_lt
    rcases a1 with a1 | a1 <;> rcases a2 with a2 | a2 <;> linarith
  have eh : hi' = hi := by
    refine uniq _ _ ?_ hn'.hi_first hn.hi_first
    have a1 := hn.gap hi' hn'.hi_mem
    have a2 := hn'.gap hi hn.hi_mem
    have := hn.lt_hi; have := hn'.lt_hi; have := hn.lo_lt; have := hn'.lo_lt
    rcases a1 with a1 | a1 <;> rcases a2 with a2 | a2 <;> linarith
  subst el eh
  have hc : Single.column "mass" = some "star_mass" := C90_keys.2.2.1
  have e := hv.symm.trans (hg' "mass" "star_mass" hc)
  rw [Except.ok.injEq] at e
  obtain ⟨a, ha, ea⟩ := hl lo' hn.lo_mem
  obtain ⟨b, hb, eb⟩ := hl hi' hn.hi_mem
  have last := zip_last (fun a b => lerp ((s.m0 - lo'.mass) / (hi'.mass - lo'.mass)) (a "star_mass") (b "star_mass")) lo'.rows hi'.rows (hlen _ hn.lo_mem _ hn.hi_mem) a b ha hb
  have hne : v ≠ [] := by
    obtain ⟨i, n, f, hin, hlf, hgf, -, -, -, -⟩ := get_shape tol (gs.of s.htrack) s.m0 ⟨_, v, hv⟩
    have := hv.symm.trans (hgf "mass" "star_mass" hc)
    rw [Except.ok.injEq] at this
    rw [this]
    intro h0
    have := congrArg List.length h0
    rw [cut_other (by decide), List.length_drop, hlf] at this
    simp at this
    omega
  rw [cut_other (by decide)] at e
  rw [e] at hne ⊢
  rw [List.getLast?_drop, if_neg]
  · unfold blend
    rw [last, ea, eb]
    congr 1
    have hd : hi'.mass - lo'.mass ≠ 0 := by have := hn.lo_lt; have := hn.lt_hi; intro h; linarith
    unfold lerp
    field_simp
    linarith
  · intro h
    exact hne (List.drop_eq_nil_of_le h)

/-! ### A grid of two stars, and what is violated -/

/-- A row of a history or of a profile. -/
noncomputable def row (m y : ℝ) : Row := fun k => if k = "star_mass" ∨ k = "mass" ∨ k = "radius" then m else if k = "y_mass_fraction_He" ∨ k = "he4" then y else 0

/-- A star of one solar mass with two rows, and one of three solar masses with three rows, which loses a third of its mass at the end. -/
noncomputable def light : Run := ⟨row 1 0, [row 1 0], fun _ => .num 1, fun _ => none, [row 1 (1 / 4), row (1 / 2) (1 / 4)]⟩
noncomputable def heavy : Run := ⟨row 3 0, [row 3 0, row 2 0], fun _ => .num 2, fun _ => none, [row 2 (3 / 4), row 1 (3 / 4)]⟩

theorem row_mass (m y : ℝ) : row m y "mass" = m ∧ row m y "star_mass" = m ∧ row m y "y_mass_fraction_He" = y ∧ row m y "he4" = y ∧ row m y "log_L" = 0 ∧ row m y "log_LH" = 0 ∧
    row m y "radius" = m := by
  simp [row]

theorem light_mass : light.mass = 1 := (row_mass 1 0).2.1
theorem heavy_mass : heavy.mass = 3 := (row_mass 3 0).2.1

theorem two_usable : Usable [light, heavy] 2 := by
  refine ⟨by simp [masses, light_mass, heavy_mass], ⟨light, by simp, by rw [light_mass]; norm_num⟩, ⟨heavy, by simp, by rw [heavy_mass]; norm_num⟩, ?_⟩
  intro r hr
  simp only [List.mem_cons, List.not_mem_nil, or_false] at hr
  rcases hr with rfl | rfl <;> refine ⟨by simp [light, heavy], ?_, ?_⟩ <;> simp [light, heavy, (row_mass _ _).1] <;> norm_num

theorem two_neighbours {lo hi : Run} (h : Neighbours [light, heavy] 2 lo hi) : lo = light ∧ hi = heavy := by
  have l := h.lo_mem
  have u := h.hi_mem
  simp only [List.mem_cons, List.not_mem_nil, or_false] at l u
  have l' := h.lo_lt
  have u' := h.lt_hi
  constructor
  · rcases l with rfl | rfl
    · rfl
    · rw [heavy_mass] at l'; norm_num at l'
  · rcases u with rfl | rfl
    · rw [light_mass] at u'; norm_num at u'
    · rfl

/-- The star of two solar masses. -/
noncomputable def two : Star := ⟨2, true, 5, fun _ => .nan, none⟩
noncomputable def twoGrids : Grids := ⟨[light, heavy], []⟩

/-- **C152** Violated: columns which are not in the list are those of one neighbour, so that the helium in a cell, the same in two columns in every run of the grid, is
not the same in the new profile. -/
theorem C152_other_columns_violated (argsort : List Interp.Node → List Interp.Node) (hs : Interp.Sorts argsort) : ∃ (gs : Grids) (s : Star) (new : List Row),
    Usable (gs.of s.htrack) s.m0 ∧ (∀ r ∈ gs.of s.htrack, ∀ c ∈ r.profile, c "he4" = c "y_mass_fraction_He") ∧
    starProfile argsort gs s = .ok { s with profile := some new } ∧ new ≠ [] ∧ ∀ c ∈ new, c "he4" ≠ c "y_mass_fraction_He" := by
  obtain ⟨lo, hi, r, new, hn, hr, hg, hf⟩ := C152_profile argsort hs twoGrids two two_usable
  obtain ⟨rfl, rfl⟩ := two_neighbours hn
  have hl : ∀ c ∈ light.profile, c "he4" = 1 / 4 ∧ c "y_mass_fraction_He" = 1 / 4 := by
    intro c hc
    simp only [light, List.mem_cons, List.not_mem_nil, or_false] at hc
    rcases hc with rfl | rfl <;> exact ⟨(row_mass _ _).2.2.2.1, (row_mass _ _).2.2.1⟩
  have hh : ∀ c ∈ heavy.profile, c "he4" = 3 / 4 ∧ c "y_mass_fraction_He" = 3 / 4 := by
    intro c hc
    simp only [heavy, List.mem_cons, List.not_mem_nil, or_false] at hc
    rcases hc with rfl | rfl <;> exact ⟨(row_mass _ _).2.2.2.1, (row_mass _ _).2.2.1⟩
  refine ⟨twoGrids, two, new, two_usable, ?_, hg, ?_, fun c hc => ?_⟩
  · intro r hr c hc
    have hr' : r ∈ [light, heavy] := hr
    simp only [List.mem_cons, List.not_mem_nil, or_false] at hr'
    rcases hr' with rfl | rfl
    · rw [(hl c hc).1, (hl c hc).2]
    · rw [(hh c hc).1, (hh c hc).2]
  · rintro rfl
    have := List.forall₂_nil_right_iff.1 hf
    rcases hr with rfl | rfl
    · simp [light] at this
    · simp [heavy] at this
  · obtain ⟨i, hi', rfl⟩ := List.mem_iff_getElem.1 hc
    have hir : i < r.profile.length := by rw [hf.length_eq]; exact hi'
    obtain ⟨⟨l, h, al, ah, e⟩, -, ho⟩ := (List.forall₂_iff_get.1 hf).2 i hir hi'
    have e1 := at_range al (k := "y_mass_fraction_He") (a := 1 / 4) (b := 1 / 4) fun c hc => ⟨(hl c hc).2.ge, (hl c hc).2.le⟩
    have e2 := at_range ah (k := "y_mass_fraction_He") (a := 3 / 4) (b := 3 / 4) fun c hc => ⟨(hh c hc).2.ge, (hh c hc).2.le⟩
    have e3 := e "y_mass_fraction_He" (by decide)
    have e4 := ho "he4" (by decide) (by decide)
    rw [le_antisymm e1.2 e1.1, le_antisymm e2.2 e2.1, light_mass, heavy_mass] at e3
    simp only [two, List.get_eq_getElem] at e3 e4
    have old : r.profile[i] "he4" = 1 / 4 ∨ r.profile[i] "he4" = 3 / 4 := by
      rcases hr with rfl | rfl
      · exact Or.inl (hl _ (List.getElem_mem _)).1
      · exact Or.inr (hh _ (List.getElem_mem _)).1
    intro h
    rw [h] at e4
    rw [← e4] at old
    rcases old with h | h <;> rw [h] at e3 <;> norm_num at e3

/-- **C152** Violated: rows of the longer track are dropped but its last profile is used, so that the profile can have another mass than the star at the end of its track,
though in every run of the grid they agree. -/
theorem C152_surface_violated (argsort : List Interp.Node → List Interp.Node) (hs : Interp.Sorts argsort) : ∃ (gs : Grids) (s : Star) (new : List Row) (v : List ℝ),
    Usable (gs.of s.htrack) s.m0 ∧ (∀ r ∈ gs.of s.htrack, ∃ a, r.rows.getLast? = some a ∧ a "star_mass" = surface r.profile) ∧
    get (-1) (gs.of s.htrack) "mass" s.m0 = .ok v ∧ starProfile argsort gs s = .ok { s with profile := some new } ∧ v.getLast? ≠ some (surface new) := by
  obtain ⟨lo, hi, new, hn, hg, -, hsurf⟩ := C152_mass argsort hs twoGrids two two_usable
  obtain ⟨rfl, rfl⟩ := two_neighbours hn
  obtain ⟨lo', hi', hn', hg'⟩ := get_between (-1) [light, heavy] 2 two_usable.absent two_usable.lower two_usable.higher
  obtain ⟨rfl, rfl⟩ := two_neighbours hn'
  have hc : Single.column "mass" = some "star_mass" := C90_keys.2.2.1
  have sl : surface light.profile = 1 := (row_mass 1 (1 / 4)).1
  have sh : surface heavy.profile = 2 := (row_mass 2 (3 / 4)).1
  refine ⟨twoGrids, two, new, _, two_usable, ?_, hg' "mass" "star_mass" hc, hg, ?_⟩
  · intro r hr
    have hr' : r ∈ [light, heavy] := hr
    simp only [List.mem_cons, List.not_mem_nil, or_false] at hr'
    rcases hr' with rfl | rfl
    · exact ⟨_, rfl, by rw [sl]; exact (row_mass 1 0).2.1⟩
    · exact ⟨_, rfl, by rw [sh]; exact (row_mass 2 0).2.1⟩
  · rw [sl, sh, light_mass, heavy_mass] at hsurf
    have e : surface new = 3 / 2 := by
      simp only [two] at hsurf
      linarith
    rw [e, light_mass, heavy_mass, cut_other (by decide)]
    have hb : ∀ c, blend ((2 - 1) / (3 - 1)) c light heavy = [lerp (1 / 2) (row 1 0 c) (row 3 0 c), lerp (1 / 2) (row 1 0 c) (row 3 0 c)] := by
      intro c
      norm_num [blend, Run.rows, light, heavy]
    rw [hb, hb, hb]
    simp only [(row_mass _ _).2.1, (row_mass _ _).2.2.2.2.1, (row_mass _ _).2.2.2.2.2.1]
    have hz : zams (-1) [lerp (1 / 2) 0 0, lerp (1 / 2) 0 0] [lerp (1 / 2) 0 0, lerp (1 / 2) 0 0] = 0 := by
      norm_num [zams, lerp, List.findIdx_cons]
    rw [hz]
    norm_num [lerp]

/-- The grid of two stars meets the hypotheses: a profile whose radius grows outwards, and final values between those of the two stars. -/
example (argsort : List Interp.Node → List Interp.Node) (hs : Interp.Sorts argsort) :
    (∃ new, starProfile argsort twoGrids two = .ok { two with profile := some new } ∧ Outwards new "radius") ∧
      ∃ t, finalValues twoGrids two = .ok t ∧ ∃ y, t.attr "m_core_CE_1cent" = .num y ∧ 1 ≤ y ∧ y ≤ 2 := by
  constructor
  · refine C152_outwards argsort hs twoGrids two two_usable "radius" (by decide) ?_
    intro r hr
    have hr' : r ∈ [light, heavy] := hr
    simp only [List.mem_cons, List.not_mem_nil, or_false] at hr'
    rcases hr' with rfl | rfl <;> simp [Outwards, light, heavy, (row_mass _ _).2.2.2.2.2.2] <;> norm_num
  · have hn : ∀ k, ∀ x ∈ masses [light, heavy], (valueAt [light, heavy] (.plain k) x).isNan = false ∧ ∃ y, valueAt [light, heavy] (.plain k) x = .num y := by
      intro k x hx
      obtain ⟨r, hf, hr, -⟩ := find_mem hx
      have : valueAt [light, heavy] (.plain k) x = r.final k := by
        unfold valueAt
        rw [hf]
        rfl
      simp only [List.mem_cons, List.not_mem_nil, or_false] at hr
      rcases hr with rfl | rfl <;> rw [this] <;> exact ⟨rfl, _, rfl⟩
    have l1 : light.mass ∈ masses [light, heavy] := by simp [masses]
    have h3 : heavy.mass ∈ masses [light, heavy] := by simp [masses]
    obtain ⟨t, ht⟩ := setAll_total [light, heavy] 2 finalKeys two fun k hk => by
      rw [lookup_known _ _ hk]
      obtain ⟨a, b, ha, hb, -, -, -, -, -, hnum, -⟩ := C90_final [light, heavy] (.plain ((chars! "S1_") ++ k.toList)) 2 two_usable.absent
        ⟨_, l1, by rw [light_mass]; norm_num, (hn _ _ l1).1⟩ ⟨_, h3, by rw [heavy_mass]; norm_num, (hn _ _ h3).1⟩
      obtain ⟨u, hu⟩ := (hn ((chars! "S1_") ++ k.toList) a ha).2
      obtain ⟨v, hv⟩ := (hn ((chars! "S1_") ++ k.toList) b hb).2
      obtain ⟨y, hy, -⟩ := hnum u v hu hv
      exact ⟨_, hy⟩
    refine ⟨t, ht, C152_final_values_range twoGrids two t ht two_usable.absent two_usable.lower two_usable.higher _ (by decide) 1 2 ?_⟩
    intro r hr
    have hr' : r ∈ [light, heavy] := hr
    simp only [List.mem_cons, List.not_mem_nil, or_false] at hr'
    rcases hr' with rfl | rfl
    · exact ⟨1, rfl, le_rfl, by norm_num⟩
    · exact ⟨2, rfl, by norm_num, le_rfl⟩

end Verif.EndStar
