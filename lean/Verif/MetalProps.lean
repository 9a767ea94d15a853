import Verif.Metal
import Verif.CoresProps
/-!
Property theorems for the metallicity through an evolution: C154.
-/
namespace Verif.Metal
open FlowChart

/-! ### The common envelope -/

theorem stripped_metal (cfg : CE.Cfg) (ty : CE.CoreType) (m r : ℝ) (s : CE.Star) : (CE.stripped cfg ty m r s).metallicity = s.metallicity := by
  cases ty <;> rfl

theorem reduce_metal (ty : CE.CoreType) (m ej : ℝ) (s : CE.Star) : (CE.reduce ty m ej s).metallicity = s.metallicity := by
  cases ty <;> rfl

theorem run_metal {c : CE.Cfg} {one double : Bool} {b b' : CE.Binary} {donor comp : CE.Star}
    (hb : donor = (if one then b.star1 else b.star2) ∧ comp = (if one then b.star2 else b.star1))
    (h : CE.run c one double b donor comp = .ok b') : b'.star1.metallicity = b.star1.metallicity ∧ b'.star2.metallicity = b.star2.metallicity := by
  have fin : ∀ d' c' : CE.Star, ∀ b0 : CE.Binary, d'.metallicity = donor.metallicity → c'.metallicity = comp.metallicity →
      (CE.assemble one b0 d' c').star1.metallicity = b.star1.metallicity ∧ (CE.assemble one b0 d' c').star2.metallicity = b.star2.metallicity := by
    intro d' c' b0 h1 h2
    rw [hb.1] at h1
    rw [hb.2] at h2
    unfold CE.assemble
    cases one
    · exact ⟨h2, h1⟩
    · exact ⟨h1, h2⟩
  unfold CE.run at h
  split at h
  · obtain rfl := Except.ok.inj h
    exact ⟨rfl, rfl⟩
  · split at h
    · cases h1 : CE.lambdaCE c donor with
      | error e => rw [h1] at h; cases h
      | ok l1 =>
        rw [h1] at h
        dsimp only at h
        cases h2 : CE.compLam c comp double with
        | error e => rw [h2] at h; cases h
        | ok l2 =>
          rw [h2] at h
          dsimp only at h
          unfold CE.simpleAlpha at h
          dsimp only at h
          split at h
          · cases h
          · cases h3 : CE.companion c comp l1 l2 double (CE.sepAfter c b donor comp l1 l2 double / Orbit.Rsun) with
            | error e => rw [h3] at h; cases h
            | ok v =>
              obtain ⟨comp', rc2⟩ := v
              rw [h3] at h
              dsimp only at h
              have hcs : comp'.metallicity = comp.metallicity := by
                unfold CE.companion at h3
                split at h3
                · split at h3
                  · have := (Prod.mk.inj (Except.ok.inj h3)).1
                    rw [← this]
                  · cases h3
                · have := (Prod.mk.inj (Except.ok.inj h3)).1
                  rw [← this]
              cases h4 : CE.phase c donor comp' l1 l2 rc2 double (CE.sepAfter c b donor comp l1 l2 double / Orbit.Rsun) with
              | error e => rw [h4] at h; cases h
              | ok p =>
                rw [h4] at h
                dsimp only at h
                unfold CE.resolve at h
                split at h
                · split at h
                  · split at h
                    · cases h
                    · obtain rfl := Except.ok.inj h
                      exact fin _ _ _ (reduce_metal _ _ _ _) ((reduce_metal _ _ _ _).trans hcs)
                  · obtain rfl := Except.ok.inj h
                    exact fin _ _ _ (reduce_metal _ _ _ _) ((reduce_metal _ _ _ _).trans hcs)
                · obtain rfl := Except.ok.inj h
                  refine fin _ _ _ (stripped_metal _ _ _ _ _) ?_
                  split
                  · exact (stripped_metal _ _ _ _ _).trans hcs
                  · exact hcs
    · cases h

/-- A common envelope leaves the metallicities alone, whatever its outcome. -/
theorem C154_common_envelope (cfg : CE.Cfg) (b b' : CE.Binary) (h : CE.step cfg b = .ok b') :
    b'.star1.metallicity = b.star1.metallicity ∧ b'.star2.metallicity = b.star2.metallicity := by
  unfold CE.step at h
  split at h
  · exact run_metal (one := true) ⟨rfl, rfl⟩ h
  · exact run_metal (one := true) ⟨rfl, rfl⟩ h
  · exact run_metal (one := false) ⟨rfl, rfl⟩ h
  · exact run_metal (one := false) ⟨rfl, rfl⟩ h
  · cases h

/-! ### The supernova -/

theorem setRadius_metal {s s' : SNStep.Star} (h : SNStep.setRadius s = .ok s') : ofSN s' = ofSN s := by
  unfold SNStep.setRadius at h
  split at h
  · cases h
  · cases h
    unfold ofSN SNStep.Star.set
    dsimp only
    rw [if_neg (by decide)]

theorem wiped (s : SNStep.Star) (keep : List String) (hk : "metallicity" ∉ keep) : (s.wipe keep).attr "metallicity" = .none := by
  unfold SNStep.Star.wipe
  dsimp only
  rw [if_pos ⟨by decide, hk⟩]

theorem wipeWD_metal {s s' : SNStep.Star} (h : SNStep.wipeWD s = .ok s') : (ofSN s').now = none := by
  unfold SNStep.wipeWD at h
  split at h
  · cases h
  · cases h
    unfold ofSN SNStep.Star.set
    dsimp only
    rw [if_neg (by decide), if_neg (by decide), wiped _ _ (by decide)]
    rfl

/-- A collapse leaves the metallicity of the last record, or none. -/
theorem C154_collapse (c : SNStep.Cfg) (s s' : SNStep.Star) (h : SNStep.collapse c s = .ok s') :
    (ofSN s').now = (ofSN s).last ∨ (ofSN s').now = none := by
  have hm : ∀ t : SNStep.Star, (ofSN (SNStep.toMassless t)).now = none := by
    intro t
    unfold ofSN SNStep.toMassless
    dsimp only
    rw [if_pos (by decide)]
    rfl
  obtain ⟨-, ⟨ty, p, h⟩ | ⟨-, q, m, ty, -, -, -, -, h⟩⟩ := SNStep.collapse_cases h
  · obtain ⟨r, -, ⟨-, s2, -, h3⟩ | ⟨-, -, rfl⟩ | ⟨-, m, s2, -, h3, h4⟩⟩ := SNStep.collapseCore_cases h
    · exact .inr (wipeWD_metal h3)
    · exact .inr (hm _)
    · left
      have hz : s2.lastZ = s.lastZ := by
        have hp : (SNStep.prepared c { SNStep.enter s with interp := p } r).lastZ = s.lastZ := by
          rw [(SNStep.frame_prepared c _ r).lastZ]
          rfl
        rw [← hp]
        rcases h4 with h4 | h4 | rfl
        · unfold SNStep.byProfile at h4
          dsimp only at h4
          generalize (if m - SN.mGrav m c.maxNu > c.maxNu then c.maxNu else m - SN.mGrav m c.maxNu) = dm at h4
          split at h4
          · cases h4; rfl
          · split at h4
            · cases h4; rfl
            · cases h4
        · unfold SNStep.byCores at h4
          dsimp only at h4
          split at h4
          · split at h4
            · cases h4
            · cases h4; rfl
          · cases h4; rfl
        · rfl
      unfold SNStep.finish at h3
      cases hr : SNStep.setRadius (s2.set "metallicity" s2.lastZ) with
      | error e => rw [hr] at h3; cases h3
      | ok t =>
        rw [hr] at h3
        cases h3
        have e := congrArg Seen.now (setRadius_metal hr)
        unfold ofSN SNStep.Star.wipe
        dsimp only
        rw [if_neg (by decide), ← hz]
        refine e.trans ?_
        unfold ofSN SNStep.Star.set
        dsimp only
        rw [if_pos rfl]
  · right
    generalize (if q.snType = "ECSN" then ty else q.snType) = pt at h
    unfold SNStep.fromModel at h
    dsimp only at h
    split at h
    · cases h
    · rename_i s2 h2
      split at h
      · cases h; exact hm _
      · rw [setRadius_metal h]
        split at h2
        · exact wipeWD_metal h2
        · cases h2
          unfold ofSN
          rw [wiped _ _ (by decide)]
          rfl

/-- A supernova step: the remnant has the metallicity of the last record or none, the other star keeps its own; the records do not change. -/
theorem C154_supernova (c : SNStep.Cfg) (b b' : SNStep.Binary) (h : SNStep.step c b = .ok b') :
    ((ofSN (b'.star b.event)).now = (ofSN (b.star b.event)).last ∨ (ofSN (b'.star b.event)).now = none) ∧
      (ofSN (b'.mate b.event)).now = (ofSN (b.mate b.event)).now := by
  obtain ⟨-, s, hs, h1, h2⟩ := SNStep.step_collapse h
  have key : ∀ {x y : SNStep.Star}, SNStep.Same (SNStep.updateState c x) y → (ofSN y).now = (ofSN x).now := by
    intro x y hxy
    unfold ofSN
    rw [hxy.attr, SNStep.update_attr]
  rw [key h1, key h2]
  refine ⟨C154_collapse c _ s hs, ?_⟩
  unfold ofSN SNStep.resetOther SNStep.Star.set
  simp

/-- The metallicity is forgotten when a white dwarf forms. -/
theorem C154_forgotten_violated (c : SNStep.Cfg) (s s' : SNStep.Star) (h : SNStep.collapse c s = .ok s') (hk : s'.state = "WD") : (ofSN s').now = none := by
  have hm : ∀ t : SNStep.Star, (SNStep.toMassless t).state = "massless_remnant" := fun _ => rfl
  obtain ⟨-, ⟨ty, p, h⟩ | ⟨-, q, m, ty, -, -, -, -, h⟩⟩ := SNStep.collapse_cases h
  · obtain ⟨r, -, ⟨-, s2, -, h3⟩ | ⟨-, -, rfl⟩ | ⟨-, m, s2, -, h3, h4⟩⟩ := SNStep.collapseCore_cases h
    · exact wipeWD_metal h3
    · rw [hm] at hk
      exact absurd hk (by decide)
    · exfalso
      rw [(Cores.finish_cores h3).2.2.2] at hk
      revert hk
      rcases h4 with h4 | h4 | rfl
      · unfold SNStep.byProfile at h4
        dsimp only at h4
        generalize (if m - SN.mGrav m c.maxNu > c.maxNu then c.maxNu else m - SN.mGrav m c.maxNu) = dm at h4
        split at h4
        · cases h4; simp [SNStep.Star.set]
        · split at h4
          · cases h4; simp [SNStep.Star.set]
          · cases h4
      · unfold SNStep.byCores at h4
        dsimp only at h4
        split at h4
        · split at h4
          · cases h4
          · cases h4; simp [SNStep.Star.set]
        · cases h4; simp [SNStep.Star.set]
      · unfold SNStep.bySpinNone SNStep.Star.set
        dsimp only
        split <;> decide
  · generalize (if q.snType = "ECSN" then ty else q.snType) = pt at h
    unfold SNStep.fromModel at h
    dsimp only at h
    split at h
    · cases h
    · rename_i s2 h2
      split at h
      · cases h
        rw [hm] at hk
        exact absurd hk (by decide)
      · rw [setRadius_metal h]
        split at h2
        · exact wipeWD_metal h2
        · cases h2
          unfold ofSN
          rw [wiped _ _ (by decide)]
          rfl

/-! ### The merger -/

theorem product_metal {cfg : Merged.Cfg} {base comp p : Merged.Star} {b : Merged.Branch} (hn : b ≠ .nsbh) (hp : Merged.product cfg base comp b = .ok p) :
    p.get "metallicity" = base.get "metallicity" ∨ p.get "metallicity" = comp.get "metallicity" := by
  cases b with
  | hmsHms =>
    left
    rw [(Merged.hmsHms_spec hp).2.2.2 _ (by decide) (by decide) (by decide), if_neg (by decide)]
  | postHms =>
    left
    rw [(Merged.postHms_spec hp).2.2 _ (by decide) (by decide), if_neg (by decide)]
  | hmsPost =>
    right
    simp only [Merged.product, Merged.hmsPost_eq] at hp
    rw [(Merged.postHms_spec hp).2.2 _ (by decide) (by decide), if_neg (by decide)]
  | postPost =>
    left
    rw [(Merged.postPost_spec hp).2.2.2 _ (by decide) (by decide) (by decide) (by decide), if_neg (by decide)]
  | postHeMS =>
    left
    obtain ⟨c, hc, hs⟩ := Merged.bindE_ok hp
    rw [(Merged.sums_after (Merged.cores2B_spec hc).2.1 hs).2.2 _ (by decide) (by decide) (by decide), if_neg (by decide)]
  | heMSPost =>
    right
    simp only [Merged.product, Merged.heMSPost_eq] at hp
    obtain ⟨c, hc, hs⟩ := Merged.bindE_ok hp
    rw [(Merged.sums_after (Merged.cores2B_spec hc).2.1 hs).2.2 _ (by decide) (by decide) (by decide), if_neg (by decide)]
  | postPostHe =>
    left
    obtain ⟨c, hc, hs⟩ := Merged.bindE_ok hp
    rw [(Merged.sums_after (Merged.cores4B_spec hc).other hs).2.2 _ (by decide) (by decide) (by decide), if_neg (by decide)]
  | postHePost =>
    right
    simp only [Merged.product, Merged.postHePost_eq] at hp
    obtain ⟨c, hc, hs⟩ := Merged.bindE_ok hp
    rw [(Merged.sums_after (Merged.cores4B_spec hc).other hs).2.2 _ (by decide) (by decide) (by decide), if_neg (by decide)]
  | heHe =>
    left
    rw [(Merged.heHe_spec hp).2.2.2 _ (by decide) (by decide) (by decide) (by decide), if_neg (by decide)]
  | wd =>
    left
    rw [(Merged.wd_spec hp).2.2.2 _ (by decide) (by decide) (by decide), if_neg (by decide)]
  | nsbh => exact absurd rfl hn

/-- The product of a merger has the metallicity of one of the two stars and the other one has none; next to a neutron star or black hole that one
keeps its own. -/
theorem C154_product (cfg : Merged.Cfg) (base comp : Merged.Star) (v : Merged.Star × Merged.Star) (h : Merged.merge cfg base comp = .ok v) :
    ((v.1.get "metallicity" = base.get "metallicity" ∨ v.1.get "metallicity" = comp.get "metallicity") ∧ v.2.get "metallicity" = .nan) ∨
      (v.1.get "metallicity" = .nan ∧ v.2 = comp) := by
  have hm : ∀ s : Merged.Star, (Merged.massless s).get "metallicity" = .nan := by
    intro s
    unfold Merged.massless
    dsimp only
    rw [if_neg (by decide), if_pos (by decide)]
  cases hb : Merged.branch base.state comp.state with
  | none =>
    unfold Merged.merge at h
    rw [hb] at h
    cases h
  | some b =>
    by_cases hn : b = .nsbh
    · subst hn
      unfold Merged.merge at h
      rw [hb] at h
      cases h
      exact .inr ⟨hm _, rfl⟩
    · obtain ⟨p, hp, e1, e2⟩ := Merged.merge_ok (m := v.1) (r := v.2) hb hn h
      left
      rw [e1, e2, Merged.get_set_ne (by decide)]
      exact ⟨product_metal hn hp, hm _⟩

/-- No other metallicity than those of the two stars comes out of a merger step. -/
theorem C154_merger (cfg : Merged.Cfg) (b b' : Merged.Binary) (h : Merged.call cfg b = .ok b') (z : Merged.Val)
    (hz : z = b'.star1.get "metallicity" ∨ z = b'.star2.get "metallicity") :
    z = .nan ∨ z = b.star1.get "metallicity" ∨ z = b.star2.get "metallicity" := by
  have one : ∀ base comp v, Merged.merge cfg base comp = .ok v → (z = v.1.get "metallicity" ∨ z = v.2.get "metallicity") →
      z = .nan ∨ z = base.get "metallicity" ∨ z = comp.get "metallicity" := by
    intro base comp v hv hz
    rcases C154_product cfg base comp v hv with ⟨e1 | e1, e2⟩ | ⟨e1, e2⟩
    · rw [e1, e2] at hz; exact hz.elim (fun e => .inr (.inl e)) .inl
    · rw [e1, e2] at hz; exact hz.elim (fun e => .inr (.inr e)) .inl
    · rw [e1, e2] at hz; exact hz.elim .inl (fun e => .inr (.inr e))
  have o : ∀ b0 : Merged.Binary, b0.star1 = b.star1 → b0.star2 = b.star2 → Merged.mergeOne cfg b0 = .ok b' →
      z = .nan ∨ z = b.star1.get "metallicity" ∨ z = b.star2.get "metallicity" := by
    intro b0 e1 e2 h
    unfold Merged.mergeOne at h
    rw [e1, e2] at h
    split at h
    · cases h
    · rename_i v hv
      cases h
      exact one _ _ _ hv hz
  have t : ∀ b0 : Merged.Binary, b0.star1 = b.star1 → b0.star2 = b.star2 → Merged.mergeTwo cfg b0 = .ok b' →
      z = .nan ∨ z = b.star1.get "metallicity" ∨ z = b.star2.get "metallicity" := by
    intro b0 e1 e2 h
    unfold Merged.mergeTwo at h
    rw [e1, e2] at h
    split at h
    · cases h
    · rename_i v hv
      cases h
      rcases one _ _ _ hv hz.symm with k | k | k
      · exact .inl k
      · exact .inr (.inr k)
      · exact .inr (.inl k)
  unfold Merged.call at h
  split at h
  · split at h
    · exact o _ rfl rfl h
    · split at h
      · exact t _ rfl rfl h
      · cases h
  · split at h
    · split at h
      · exact o _ (by rfl) (by rfl) h
      · split at h
        · exact t _ (by rfl) (by rfl) h
        · cases h
    · cases h

/-! ### All steps -/

theorem C154_step {z : ℝ} {p q : Seen × Seen} (h : Step p q) (h1 : Only z p.1) (h2 : Only z p.2) : Only z q.1 ∧ Only z q.2 := by
  cases h with
  | ce cfg b b' u v h =>
    obtain ⟨e1, e2⟩ := C154_common_envelope cfg b b' h
    rw [e1, e2]
    exact ⟨h1, h2⟩
  | sn c b b' h =>
    obtain ⟨he, -⟩ := SNStep.step_collapse h
    have k := C154_supernova c b b' h
    have one : ∀ (x y : SNStep.Star), Only z (ofSN x) → ((ofSN y).now = (ofSN x).last ∨ (ofSN y).now = none) → Only z ⟨(ofSN y).now, (ofSN x).last⟩ := by
      intro x y hx hy
      refine ⟨fun a ha => ?_, hx.2⟩
      rcases hy with hy | hy
      · exact hx.2 a (hy.symm.trans ha)
      · exact absurd (hy.symm.trans ha) (by simp)
    have two : ∀ (x y : SNStep.Star), Only z (ofSN x) → (ofSN y).now = (ofSN x).now → Only z ⟨(ofSN y).now, (ofSN x).last⟩ := by
      intro x y hx hy
      rw [hy]
      exact hx
    rcases he with he | he
    · rw [he] at k
      exact ⟨one _ _ h1 k.1, two _ _ h2 k.2⟩
    · rw [he] at k
      exact ⟨two _ _ h1 k.2, one _ _ h2 k.1⟩
  | merged cfg b b' u v h =>
    have key : ∀ s : Merged.Star, (s = b'.star1 ∨ s = b'.star2) → ∀ x, Cores.numberQ (s.get "metallicity") = some x → x = z := by
      intro s hs x hx
      have := C154_merger cfg b b' h (s.get "metallicity") (by rcases hs with rfl | rfl; exacts [.inl rfl, .inr rfl])
      rcases this with e | e | e <;> rw [e] at hx
      · cases hx
      · exact h1.1 x hx
      · exact h2.1 x hx
    exact ⟨⟨key _ (.inl rfl), h1.2⟩, key _ (.inr rfl), h2.2⟩
  | quiet x y => exact ⟨h1, h2⟩
  | record x y => exact ⟨⟨h1.1, h1.1⟩, h2.1, h2.1⟩

/-- Through a whole evolution, with any number of steps in any order: two stars that start with the same metallicity never show another one. -/
theorem C154_evolution {z : ℝ} {p q : Seen × Seen} (h : Relation.ReflTransGen Step p q) (h1 : Only z p.1) (h2 : Only z p.2) : Only z q.1 ∧ Only z q.2 := by
  induction h with
  | refl => exact ⟨h1, h2⟩
  | tail _ hs ih => exact C154_step hs ih.1 ih.2

/-- A star of a tenth of solar metallicity, recorded, and its companion, not yet recorded. -/
example : ∃ q, Relation.ReflTransGen Step (⟨some 0.1, some 0.1⟩, ⟨some 0.1, none⟩) q ∧ q.2.last = some 0.1 ∧
    Only 0.1 (⟨some 0.1, some 0.1⟩ : Seen) ∧ Only 0.1 (⟨some 0.1, none⟩ : Seen) ∧ ¬ Only 0.1 (⟨some 1, none⟩ : Seen) := by
  refine ⟨_, .single (.record _ _), rfl, ⟨?_, ?_⟩, ⟨?_, ?_⟩, fun h => ?_⟩
  · intro x hx; cases hx; rfl
  · intro x hx; cases hx; rfl
  · intro x hx; cases hx; rfl
  · intro x hx; cases hx
  · have := h.1 1 rfl
    norm_num at this

/-- Stars of different metallicities: a merger can show the one of the second star at the place of the first. -/
theorem C154_swapped (cfg : Merged.Cfg) (base comp p : Merged.Star) (h : Merged.product cfg base comp .hmsPost = .ok p) :
    p.get "metallicity" = comp.get "metallicity" := by
  simp only [Merged.product, Merged.hmsPost_eq] at h
  rw [(Merged.postHms_spec h).2.2 _ (by decide) (by decide), if_neg (by decide)]

end Verif.Metal
