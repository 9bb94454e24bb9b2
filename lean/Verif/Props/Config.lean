/-
Property theorems C34–C36 and C61: the configuration.
-/
import Verif.Model.Config
import Mathlib.Tactic.Linarith
import Mathlib.Tactic.Ring
import Mathlib.Tactic.FieldSimp
import Mathlib.Tactic.Positivity

namespace Soapy.Props

open Soapy.Conf

section config

theorem mapE_ok {α β : Type} (f : α → Except PyErr β) (l : List α) (r : List β) (h : mapE f l = .ok r) :
    List.Forall₂ (fun a b => f a = .ok b) l r := by
  induction l generalizing r with
  | nil => simp only [mapE, Except.ok.injEq] at h; subst h; exact .nil
  | cons a as ih =>
    simp only [mapE] at h
    cases hf : f a with
    | error e => rw [hf] at h; cases h
    | ok b =>
      rw [hf] at h
      cases hm : mapE f as with
      | error e => rw [hm] at h; cases h
      | ok bs =>
        rw [hm] at h
        simp only [Except.bind, Except.ok.injEq] at h
        subst h
        exact .cons hf (ih bs hm)

theorem mapE_of_forall {α β : Type} (f : α → Except PyErr β) (l : List α) (r : List β) (h : List.Forall₂ (fun a b => f a = .ok b) l r) :
    mapE f l = .ok r := by
  induction h with
  | nil => rfl
  | cons h1 _ ih => simp only [mapE, h1, ih, Except.bind]

/-- The shape of a successful calculation. -/
theorem calcParams_ok (c d : Config) (h : calcParams c = .ok d) :
    ∃ scis ps, mapE sciCalc c.scis = .ok scis ∧ c.telDiam ≠ 0 ∧ ¬ (c.wfss.length < c.nGS ∨ scis.length < c.nSci) ∧ positions c scis = .ok ps ∧ c.heights ≠ [] ∧
      d = { c with
          scis := scis
          wfss := c.wfss.map (wfsCalc c.loopTime)
          L0 := some (c.L0.getD (List.replicate c.scrnNo 10000000000))
          dms := c.dms.map fun d => some (d.getD c.telDiam)
          derived := some ⟨c.pupil / c.telDiam, simPadOf c.pupil c.oversize, c.pupil + 2 * simPadOf c.pupil c.oversize,
            scrnSizeOf (c.pupil / c.telDiam) (maxOf c.heights) (maxOf ps) (c.pupil + 2 * simPadOf c.pupil c.oversize) ((c.wfss.take c.nGS).any fun w => w.physical)⟩ } := by
  unfold calcParams at h
  cases hm : mapE sciCalc c.scis with
  | error e => rw [hm] at h; cases h
  | ok scis =>
    rw [hm] at h
    simp only [Except.bind] at h
    by_cases ht : c.telDiam = 0
    · rw [if_pos ht] at h; cases h
    · rw [if_neg ht] at h
      by_cases hl : c.wfss.length < c.nGS ∨ scis.length < c.nSci
      · rw [if_pos hl] at h; cases h
      · rw [if_neg hl] at h
        by_cases hh : c.heights = []
        · rw [if_pos hh] at h; cases h
        · rw [if_neg hh] at h
          cases hp : positions c scis with
          | error e => rw [hp] at h; cases h
          | ok ps =>
            rw [hp] at h
            exact ⟨scis, ps, rfl, ht, hl, hp, hh, (Except.ok.inj h).symm⟩

/-! ### C34 -/

theorem foldl_max_ge (l : List ℚ) (a : ℚ) : a ≤ l.foldl max a ∧ ∀ x ∈ l, x ≤ l.foldl max a := by
  induction l generalizing a with
  | nil => exact ⟨le_refl _, by simp⟩
  | cons b l ih =>
    obtain ⟨h1, h2⟩ := ih (max a b)
    refine ⟨le_trans (le_max_left _ _) h1, ?_⟩
    intro x hx
    rcases List.mem_cons.mp hx with rfl | hx
    · exact le_trans (le_max_right _ _) h1
    · exact h2 x hx

theorem maxOf_ge (l : List ℚ) (x : ℚ) (hx : x ∈ l) : x ≤ maxOf l := by
  cases l with
  | nil => cases hx
  | cons a l =>
    rcases List.mem_cons.mp hx with rfl | hx
    · exact (foldl_max_ge l _).1
    · exact (foldl_max_ge l _).2 x hx

theorem asec2rad_pos : 0 < asec2rad := by unfold asec2rad rad2asec; norm_num

theorem scrnSizeOf_ge (s hM m : ℚ) (n : ℕ) (phys : Bool) (hs : 0 ≤ s) (hh : 0 ≤ hM) :
    2 * s * hM * |m| * asec2rad + n ≤ (scrnSizeOf s hM m n phys : ℚ) := by
  have hx : 0 ≤ 2 * s * hM * |m| * asec2rad := by
    have := asec2rad_pos
    positivity
  have hc := Int.le_ceil (2 * s * hM * |m| * asec2rad)
  have h0 : 0 ≤ ⌈2 * s * hM * |m| * asec2rad⌉ := Int.ceil_nonneg hx
  have hk : ((⌈2 * s * hM * |m| * asec2rad⌉ + (n : ℤ)).toNat : ℚ) = ⌈2 * s * hM * |m| * asec2rad⌉ + n := by
    have : (((⌈2 * s * hM * |m| * asec2rad⌉ + (n : ℤ)).toNat : ℤ) : ℚ) = _ := congrArg _ (Int.toNat_of_nonneg (by omega))
    push_cast at this
    exact this
  unfold scrnSizeOf
  simp only
  generalize hK : (⌈2 * s * hM * |m| * asec2rad⌉ + (n : ℤ)).toNat = k at *
  have hk2 : (k : ℚ) ≤ ((if k % 2 ≠ 0 then k + 1 else k : ℕ) : ℚ) := by
    split_ifs <;> push_cast <;> linarith
  generalize (if k % 2 ≠ 0 then k + 1 else k) = j at *
  have hj : (0 : ℚ) ≤ j := by positivity
  cases phys
  · simp only [Bool.false_eq_true, if_false]; linarith
  · simp only [if_true]; push_cast; linarith

/-- The whole footprint of direction `pos` on a layer at height `h` lies on the screen. -/
def OnScreen (D : Derived) (pos : ℚ × ℚ) (source h : ℚ) : Prop :=
  let e := Los.altitudeCoords (losGeom D pos source) h
  ∀ v ∈ [e.1, e.2.1, e.2.2.1, e.2.2.2], 0 ≤ v ∧ v ≤ D.scrnSize

/-- A direction, each coordinate of which is at most, in absolute value, one of the coordinates collected, is on the screen on every layer. -/
theorem C34_any_direction (c d : Config) (D : Derived) (scis : List Sci) (ps : List ℚ) (hc : calcParams c = .ok d) (hD : d.derived = some D) (ht : 0 < c.telDiam)
    (hs : mapE sciCalc c.scis = .ok scis) (hp : positions c scis = .ok ps) (pos : ℚ × ℚ) (source h : ℚ) (hh : h ∈ c.heights) (h0 : 0 ≤ h)
    (hsrc : source = 0 ∨ (0 < source ∧ h ≤ 2 * source))
    (hx : ∃ y ∈ ps, |pos.1| ≤ y) (hy : ∃ y ∈ ps, |pos.2| ≤ y) (hpup : 0 < c.pupil) : OnScreen D pos source h := by
  obtain ⟨scis', ps', hs', _, _, hp', _, hd⟩ := calcParams_ok c d hc
  rw [hs] at hs'; cases hs'
  rw [hp] at hp'; cases hp'
  rw [hd] at hD
  have hD := (Option.some.inj hD).symm
  have hM : h ≤ maxOf c.heights := maxOf_ge _ _ hh
  have hsc : 0 < (c.pupil : ℚ) / c.telDiam := div_pos (by exact_mod_cast hpup) ht
  have key := scrnSizeOf_ge ((c.pupil : ℚ) / c.telDiam) (maxOf c.heights) (maxOf ps) (c.pupil + 2 * simPadOf c.pupil c.oversize)
    ((c.wfss.take c.nGS).any fun w => w.physical) hsc.le (le_trans h0 hM)
  have e1 : D.pxlScale = (c.pupil : ℚ) / c.telDiam := by rw [hD]
  have e2 : D.simSize = c.pupil + 2 * simPadOf c.pupil c.oversize := by rw [hD]
  have e3 : D.scrnSize = scrnSizeOf ((c.pupil : ℚ) / c.telDiam) (maxOf c.heights) (maxOf ps) (c.pupil + 2 * simPadOf c.pupil c.oversize)
    ((c.wfss.take c.nGS).any fun w => w.physical) := by rw [hD]
  rw [← e3, ← e1, ← e2] at key
  rw [← e1] at hsc
  -- one axis
  have axis : ∀ a : ℚ, (∃ y ∈ ps, |a| ≤ y) → ∀ v ∈ [(Los.edges (losGeom D pos source) (asec2rad * a) 0 h).1, (Los.edges (losGeom D pos source) (asec2rad * a) 0 h).2],
      0 ≤ v ∧ v ≤ D.scrnSize := by
    intro a ⟨y, hy, hay⟩
    have hym : |a| ≤ |maxOf ps| := le_trans hay (le_trans (maxOf_ge ps y hy) (le_abs_self _))
    have hc1 : |asec2rad * a * h * D.pxlScale| ≤ D.pxlScale * maxOf c.heights * |maxOf ps| * asec2rad := by
      rw [abs_mul, abs_mul, abs_mul, abs_of_pos asec2rad_pos, abs_of_nonneg h0, abs_of_pos hsc]
      have : |a| * h ≤ |maxOf ps| * maxOf c.heights := mul_le_mul hym hM h0 (abs_nonneg _)
      have hq : 0 ≤ asec2rad * D.pxlScale := mul_nonneg asec2rad_pos.le hsc.le
      have := mul_le_mul_of_nonneg_left this hq
      linarith
    have hf : ∃ f : ℚ, |f| ≤ 1 ∧ (Los.edges (losGeom D pos source) (asec2rad * a) 0 h) =
        (asec2rad * a * h * D.pxlScale - D.simSize * f / 2 + D.scrnSize / 2, asec2rad * a * h * D.pxlScale + D.simSize * f / 2 + D.scrnSize / 2) := by
      rcases hsrc with rfl | ⟨hs0, hs2⟩
      · refine ⟨1, by simp, ?_⟩
        simp only [Los.edges, Los.footprint, losGeom, Bool.false_eq_true, if_false, ne_eq, not_true_eq_false]
        have : D.pxlScale ≠ 0 := hsc.ne'
        congr 1 <;> field_simp
      · refine ⟨1 - h / source, ?_, ?_⟩
        · have h1 : 0 ≤ h / source := div_nonneg h0 hs0.le
          have h2 : h / source ≤ 2 := by rw [div_le_iff₀ hs0]; linarith
          rw [abs_le]; constructor <;> linarith
        · simp only [Los.edges, Los.footprint, losGeom, Bool.false_eq_true, if_false, ne_eq, hs0.ne', not_false_eq_true, if_true]
          have : D.pxlScale ≠ 0 := hsc.ne'
          congr 1 <;> field_simp
    obtain ⟨f, hf1, hf2⟩ := hf
    rw [hf2]
    have hn : (0 : ℚ) ≤ D.simSize := by positivity
    have hnf : |(D.simSize : ℚ) * f| ≤ D.simSize := by
      rw [abs_mul, abs_of_nonneg hn]
      nlinarith [abs_nonneg f]
    rw [abs_le] at hc1 hnf
    intro v hv
    simp only [List.mem_cons, List.not_mem_nil, or_false] at hv
    rcases hv with rfl | rfl <;> constructor <;> linarith [hc1.1, hc1.2, hnf.1, hnf.2]
  intro v hv
  simp only [List.mem_cons, List.not_mem_nil, or_false] at hv
  rcases hv with hv | hv | hv | hv
  · exact axis pos.1 hx v (by simp [hv, Los.altitudeCoords, losGeom])
  · exact axis pos.1 hx v (by simp [hv, Los.altitudeCoords, losGeom])
  · exact axis pos.2 hy v (by simp [hv, Los.altitudeCoords, losGeom])
  · exact axis pos.2 hy v (by simp [hv, Los.altitudeCoords, losGeom])

theorem forall₂_mem_left {α β : Type} {R : α → β → Prop} {l : List α} {r : List β} (h : List.Forall₂ R l r) (a : α) (ha : a ∈ l) : ∃ b ∈ r, R a b := by
  induction h with
  | nil => cases ha
  | cons h1 _ ih =>
    rcases List.mem_cons.mp ha with rfl | ha
    · exact ⟨_, by simp, h1⟩
    · obtain ⟨b, hb, hr⟩ := ih ha; exact ⟨b, by simp [hb], hr⟩

theorem sciCalc_pos (s t : Sci) (h : sciCalc s = .ok t) : t.pos = s.pos := by
  unfold sciCalc at h
  split at h
  · cases h
  · split_ifs at h; cases h; rfl
  · split_ifs at h <;> cases h <;> rfl

/-- **C34 (guide stars).** Missing: beacons with elongation, whose collected coordinates can be smaller than those of the beacon (`C34_elongated_violated`).  Every other guide star's
footprint lies on the screen on every layer, up to twice the height of the beacon. -/
theorem C34_guide_stars_partial (c d : Config) (D : Derived) (hc : calcParams c = .ok d) (hD : d.derived = some D) (ht : 0 < c.telDiam) (hpup : 0 < c.pupil)
    (w : Wfs) (hw : w ∈ c.wfss.take c.nGS) (hl : ∀ l, w.lgs = some l → l.depth = 0) (h : ℚ) (hh : h ∈ c.heights) (h0 : 0 ≤ h)
    (hsrc : w.height = 0 ∨ (0 < w.height ∧ h ≤ 2 * w.height)) : OnScreen D w.pos w.height h := by
  obtain ⟨scis, ps, hs, _, _, hp, _, _⟩ := calcParams_ok c d hc
  have hg : gsCoords c.telDiam w = .ok [|w.pos.1|, |w.pos.2|] := by
    unfold gsCoords
    cases hlg : w.lgs with
    | none => rfl
    | some l => simp only [hl l hlg, if_true]
  have hmem : ∀ y ∈ [|w.pos.1|, |w.pos.2|], y ∈ ps := by
    unfold positions at hp
    cases hm : mapE (gsCoords c.telDiam) (c.wfss.take c.nGS) with
    | error e => rw [hm] at hp; cases hp
    | ok gs =>
      rw [hm] at hp
      simp only [Except.bind, Except.ok.injEq] at hp
      obtain ⟨b, hb, hr⟩ := forall₂_mem_left (mapE_ok _ _ _ hm) w hw
      rw [hg] at hr
      cases hr
      intro y hy
      rw [← hp]
      exact List.mem_append_left _ (List.mem_flatten.mpr ⟨_, hb, hy⟩)
  exact C34_any_direction c d D scis ps hc hD ht hs hp w.pos w.height h hh h0 hsrc ⟨_, hmem _ (by simp), le_refl _⟩ ⟨_, hmem _ (by simp), le_refl _⟩ hpup

/-- **C34 (science).** Missing: targets with a negative coordinate (`C34_negative_science_violated`). -/
theorem C34_science_partial (c d : Config) (D : Derived) (hc : calcParams c = .ok d) (hD : d.derived = some D) (ht : 0 < c.telDiam) (hpup : 0 < c.pupil)
    (s : Sci) (hsm : s ∈ c.scis.take c.nSci) (hx : 0 ≤ s.pos.1) (hy : 0 ≤ s.pos.2) (source h : ℚ) (hh : h ∈ c.heights) (h0 : 0 ≤ h)
    (hsrc : source = 0 ∨ (0 < source ∧ h ≤ 2 * source)) : OnScreen D s.pos source h := by
  obtain ⟨scis, ps, hs, _, _, hp, _, _⟩ := calcParams_ok c d hc
  have hmem : ∀ y ∈ [s.pos.1, s.pos.2], y ∈ ps := by
    unfold positions at hp
    cases hm : mapE (gsCoords c.telDiam) (c.wfss.take c.nGS) with
    | error e => rw [hm] at hp; cases hp
    | ok gs =>
      rw [hm] at hp
      simp only [Except.bind, Except.ok.injEq] at hp
      obtain ⟨t, htm, hr⟩ := forall₂_mem_left (List.forall₂_take c.nSci (mapE_ok _ _ _ hs)) s hsm
      intro y hy
      rw [← hp]
      refine List.mem_append_right _ (List.mem_flatten.mpr ⟨[t.pos.1, t.pos.2], List.mem_map.mpr ⟨t, htm, rfl⟩, ?_⟩)
      rw [sciCalc_pos s t hr]; exact hy
  exact C34_any_direction c d D scis ps hc hD ht hs hp s.pos source h hh h0 hsrc ⟨_, hmem _ (by simp), (abs_of_nonneg hx).le⟩ ⟨_, hmem _ (by simp), (abs_of_nonneg hy).le⟩ hpup

/-- **C34 (sizes).** The simulated area is the pupil with the same margin of at least one pixel on each side, and the screens have an even size no smaller. -/
theorem C34_sizes (c d : Config) (D : Derived) (hc : calcParams c = .ok d) (hD : d.derived = some D) (ht : 0 < c.telDiam) (hh : ∃ h ∈ c.heights, 0 ≤ h) :
    1 ≤ D.simPad ∧ D.simSize = c.pupil + 2 * D.simPad ∧ D.scrnSize % 2 = 0 ∧ D.simSize ≤ D.scrnSize := by
  obtain ⟨scis, ps, hs, _, _, hp, _, hd⟩ := calcParams_ok c d hc
  rw [hd] at hD
  have hD := (Option.some.inj hD).symm
  obtain ⟨h, hm, h0⟩ := hh
  have key := scrnSizeOf_ge ((c.pupil : ℚ) / c.telDiam) (maxOf c.heights) (maxOf ps) (c.pupil + 2 * simPadOf c.pupil c.oversize)
    ((c.wfss.take c.nGS).any fun w => w.physical) (by positivity) (le_trans h0 (maxOf_ge _ _ hm))
  refine ⟨?_, by rw [hD], ?_, ?_⟩
  · rw [hD]; simp only [simPadOf]; omega
  · rw [hD]; simp only [scrnSizeOf]
    split_ifs <;> omega
  · rw [hD]
    have h1 : 0 ≤ 2 * ((c.pupil : ℚ) / c.telDiam) * maxOf c.heights * |maxOf ps| * asec2rad := by
      have := asec2rad_pos
      have := le_trans h0 (maxOf_ge _ _ hm)
      positivity
    have : ((c.pupil + 2 * simPadOf c.pupil c.oversize : ℕ) : ℚ) ≤ _ := le_trans (by linarith) key
    exact_mod_cast this

/-- A pupil of 64 pixels and 8 m, one layer at 10 km, one guide star at (-30, 10) arc seconds. -/
def toyConfig (lgs : Option Lgs) (nGS : ℕ) (scis : List Sci) : Config :=
  { pupil := 64, oversize := 102 / 100, nGS := nGS, nSci := scis.length, loopTime := 1 / 400, telDiam := 8, heights := [0, 10000], scrnNo := 2, L0 := none
    wfss := [⟨(-30, 10), 200000, lgs, false, none, 1, false⟩], dms := [none, some 9], scis := scis, derived := none }

example : (calcParams (toyConfig none 1 [])).map (·.derived) = .ok (some ⟨8, 1, 66, 90⟩) := by decide +kernel

/-- **C34 (nobody looks).** Without guide stars and science targets the screens are as large as the simulated area, rounded up to an even number. -/
theorem C34_alone (c d : Config) (D : Derived) (hc : calcParams c = .ok d) (hD : d.derived = some D) (hg : c.nGS = 0) (hs : c.nSci = 0) : D.scrnSize = D.simSize + D.simSize % 2 := by
  obtain ⟨scis, ps, _, _, _, hp, _, hd⟩ := calcParams_ok c d hc
  rw [hd] at hD
  have hD := (Option.some.inj hD).symm
  have hps : ps = [] := by
    have : (Except.ok [] : Except PyErr (List ℚ)) = .ok ps := by simpa [positions, hg, hs, mapE, Except.bind] using hp
    exact (Except.ok.inj this).symm
  rw [hD, hps]
  simp only [scrnSizeOf, hg, List.take_zero, List.any_nil, maxOf, abs_zero, mul_zero, zero_mul, Int.ceil_zero, zero_add, Int.toNat_natCast, Bool.false_eq_true, if_false]
  split_ifs <;> omega

example : (calcParams (toyConfig none 0 [])).map (·.derived) = .ok (some ⟨8, 1, 66, 66⟩) := by decide +kernel

/-- **C34 (violated for science targets in negative directions).** Their coordinates are collected without absolute value, so the screen is cut for a target at (-30, -30). -/
theorem C34_negative_science_violated : ∃ c d D, calcParams c = .ok d ∧ d.derived = some D ∧ ∃ s ∈ c.scis.take c.nSci, ∃ h ∈ c.heights, ¬ OnScreen D s.pos 0 h := by
  have hd : (calcParams (toyConfig none 0 [⟨(-30, -10), some 1, none, 10⟩])).map (·.derived) = .ok (some ⟨8, 1, 66, 74⟩) := by decide +kernel
  cases hc : calcParams (toyConfig none 0 [⟨(-30, -10), some 1, none, 10⟩]) with
  | error e => rw [hc] at hd; cases hd
  | ok d =>
    rw [hc] at hd
    refine ⟨_, d, ⟨8, 1, 66, 74⟩, hc, by simpa [Except.map] using hd, ⟨(-30, -10), some 1, none, 10⟩, by simp [toyConfig], 10000, by simp [toyConfig], ?_⟩
    intro h
    have := (h _ (List.mem_cons_self ..)).1
    revert this
    decide +kernel

/-- **C34 (violated for elongated beacons).** The shift meant to enlarge the screen is added to signed coordinates: for an elongated beacon at (-30, 10) arc seconds the collected coordinates are 20. -/
theorem C34_elongated_violated : ∃ c d D, calcParams c = .ok d ∧ d.derived = some D ∧ ∃ w ∈ c.wfss.take c.nGS, ∃ h ∈ c.heights, ¬ OnScreen D w.pos w.height h := by
  have hd : (calcParams (toyConfig (some ⟨1000, (0, 0)⟩) 1 [])).map (·.derived) = .ok (some ⟨8, 1, 66, 82⟩) := by decide +kernel
  cases hc : calcParams (toyConfig (some ⟨1000, (0, 0)⟩) 1 []) with
  | error e => rw [hc] at hd; cases hd
  | ok d =>
    rw [hc] at hd
    refine ⟨_, d, ⟨8, 1, 66, 82⟩, hc, by simpa [Except.map] using hd, ⟨(-30, 10), 200000, some ⟨1000, (0, 0)⟩, false, none, 1, false⟩, by simp [toyConfig], 10000, by simp [toyConfig], ?_⟩
    intro h
    have := (h _ (List.mem_cons_self ..)).1
    revert this
    decide +kernel

/-- The greatest shift of the ends of an elongated beacon, launched up to `L` metres from the axis, is that of its lower end. -/
theorem elongShift_eq (tel : ℚ) (w : Wfs) (l : Lgs) (ht : 0 ≤ tel) (hd : 0 < l.depth) (hH : l.depth < 2 * w.height) :
    elongShift tel w l = max w.pos.1 w.pos.2 + l.depth / 2 * (max |l.launch.1| |l.launch.2| * tel / 2) / (w.height * (w.height - l.depth / 2)) * rad2asec := by
  have hL : 0 ≤ max |l.launch.1| |l.launch.2| * tel / 2 := by positivity
  have hr : 0 < rad2asec := by unfold rad2asec; norm_num
  unfold elongShift
  simp only
  generalize max |l.launch.1| |l.launch.2| * tel / 2 = L at *
  have h0 : 0 < w.height := by linarith
  have h1 : 0 < w.height - l.depth / 2 := by linarith
  have h2 : 0 < w.height + l.depth / 2 := by linarith
  have e : w.height + -1 * l.depth / 2 = w.height - l.depth / 2 := by ring
  rw [e, max_eq_left]
  · ring
  · have a : 0 ≤ l.depth / 2 * L / (w.height * (w.height + l.depth / 2)) * rad2asec := by positivity
    have b : 0 ≤ l.depth / 2 * L / (w.height * (w.height - l.depth / 2)) * rad2asec := by positivity
    have c : -1 * l.depth / 2 * L / (w.height * (w.height - l.depth / 2)) * rad2asec = -(l.depth / 2 * L / (w.height * (w.height - l.depth / 2)) * rad2asec) := by ring
    rw [c]
    linarith

/-- **C34 (beacons on the ground).** The coordinates of a guide star cannot be collected exactly if it is an elongated beacon that is, or has an end, at height zero. -/
theorem C34_ground (tel : ℚ) (w : Wfs) (e : PyErr) :
    gsCoords tel w = .error e ↔ e = .overflowError ∧ ∃ l, w.lgs = some l ∧ l.depth ≠ 0 ∧ (w.height = 0 ∨ 2 * w.height = l.depth ∨ 2 * w.height = -l.depth) := by
  unfold gsCoords
  cases hl : w.lgs with
  | none => simp
  | some l =>
    dsimp only
    by_cases hd : l.depth = 0
    · simp [hd]
    · rw [if_neg hd]
      have e1 : (w.height + -1 * l.depth / 2 = 0) ↔ 2 * w.height = l.depth := ⟨fun h => by linarith, fun h => by linarith⟩
      have e2 : (w.height + l.depth / 2 = 0) ↔ 2 * w.height = -l.depth := ⟨fun h => by linarith, fun h => by linarith⟩
      simp only [e1, e2]
      by_cases h : w.height = 0 ∨ 2 * w.height = l.depth ∨ 2 * w.height = -l.depth
      · rw [if_pos h]
        simp only [Except.error.injEq]
        exact ⟨fun q => ⟨q.symm, l, rfl, hd, h⟩, fun q => q.1.symm⟩
      · rw [if_neg h]
        simp [hd, h]

/-- **C34 (elongated beacons).** Missing: beacons with a negative coordinate (`C34_elongated_violated`).  For a beacon of depth less than twice its height the coordinates collected are those of the
beacon plus the greater of the two plus the angle by which the lower end is displaced when the laser is launched from the greater of the launch coordinates, and the footprint of every point of the
beacon, between the ends, seen from the launch position, lies on the screen on every layer. -/
theorem C34_elongated_partial (c d : Config) (D : Derived) (hc : calcParams c = .ok d) (hD : d.derived = some D) (ht : 0 < c.telDiam) (hpup : 0 < c.pupil)
    (w : Wfs) (hw : w ∈ c.wfss.take c.nGS) (l : Lgs) (hl : w.lgs = some l) (hd : 0 < l.depth) (hH : l.depth < 2 * w.height) (hx : 0 ≤ w.pos.1) (hy : 0 ≤ w.pos.2) :
    (let s := max w.pos.1 w.pos.2 + l.depth / 2 * (max |l.launch.1| |l.launch.2| * c.telDiam / 2) / (w.height * (w.height - l.depth / 2)) * rad2asec;
      gsCoords c.telDiam w = .ok [w.pos.1 + s, w.pos.2 + s]) ∧
    ∀ (dh h : ℚ), |dh| ≤ l.depth / 2 → h ∈ c.heights → 0 ≤ h → h ≤ 2 * w.height - l.depth →
      OnScreen D (w.pos.1 - dh * (l.launch.1 * c.telDiam / 2) / (w.height * (w.height + dh)) * rad2asec, w.pos.2 - dh * (l.launch.2 * c.telDiam / 2) / (w.height * (w.height + dh)) * rad2asec) (w.height + dh) h := by
  have hr : 0 < rad2asec := by unfold rad2asec; norm_num
  have h0 : 0 < w.height := by linarith
  have h1 : 0 < w.height - l.depth / 2 := by linarith
  have hL : 0 ≤ max |l.launch.1| |l.launch.2| * c.telDiam / 2 := by positivity
  have hs0 : 0 ≤ l.depth / 2 * (max |l.launch.1| |l.launch.2| * c.telDiam / 2) / (w.height * (w.height - l.depth / 2)) * rad2asec := by positivity
  have hmx : 0 ≤ max w.pos.1 w.pos.2 := le_max_of_le_left hx
  have hg : gsCoords c.telDiam w = .ok [w.pos.1 + elongShift c.telDiam w l, w.pos.2 + elongShift c.telDiam w l] := by
    have e := elongShift_eq c.telDiam w l ht.le hd hH
    unfold gsCoords
    rw [hl]
    simp only
    have hn : ¬ (w.height = 0 ∨ w.height + -1 * l.depth / 2 = 0 ∨ w.height + l.depth / 2 = 0) := by
      rintro (h | h | h) <;> linarith
    rw [if_neg hd.ne', if_neg hn, abs_of_nonneg (by rw [e]; linarith), abs_of_nonneg (by rw [e]; linarith)]
  have hg' := hg
  rw [elongShift_eq c.telDiam w l ht.le hd hH] at hg
  refine ⟨hg, fun dh h hdh hh hh0 hh2 => ?_⟩
  obtain ⟨scis, ps, hs, _, _, hp, _, _⟩ := calcParams_ok c d hc
  set s := max w.pos.1 w.pos.2 + l.depth / 2 * (max |l.launch.1| |l.launch.2| * c.telDiam / 2) / (w.height * (w.height - l.depth / 2)) * rad2asec with hsdef
  have hmem : ∀ y ∈ [w.pos.1 + s, w.pos.2 + s], y ∈ ps := by
    unfold positions at hp
    cases hm : mapE (gsCoords c.telDiam) (c.wfss.take c.nGS) with
    | error e => rw [hm] at hp; cases hp
    | ok gs =>
      rw [hm] at hp
      simp only [Except.bind, Except.ok.injEq] at hp
      obtain ⟨b, hb, hr⟩ := forall₂_mem_left (mapE_ok _ _ _ hm) w hw
      rw [hg] at hr
      cases hr
      intro y hy
      rw [← hp]
      exact List.mem_append_left _ (List.mem_flatten.mpr ⟨_, hb, hy⟩)
  have hlo := (abs_le.mp hdh).1
  have hpos : 0 < w.height + dh := by linarith
  have axis : ∀ (p x : ℚ), 0 ≤ p → p ≤ max w.pos.1 w.pos.2 → |x| ≤ max |l.launch.1| |l.launch.2| → |p - dh * (x * c.telDiam / 2) / (w.height * (w.height + dh)) * rad2asec| ≤ p + s := by
    intro p x hp0 hpm hxl
    have hb : |dh * (x * c.telDiam / 2) / (w.height * (w.height + dh)) * rad2asec| ≤ l.depth / 2 * (max |l.launch.1| |l.launch.2| * c.telDiam / 2) / (w.height * (w.height - l.depth / 2)) * rad2asec := by
      rw [abs_mul, abs_div, abs_mul, abs_mul w.height, abs_of_pos h0, abs_of_pos hpos, abs_of_pos hr, abs_div, abs_mul x, abs_of_pos ht, abs_of_pos (by norm_num : (0 : ℚ) < 2)]
      have g1 : |x| * c.telDiam / 2 ≤ max |l.launch.1| |l.launch.2| * c.telDiam / 2 := by
        have := mul_le_mul_of_nonneg_right hxl ht.le
        linarith
      have g2 : |dh| * (|x| * c.telDiam / 2) ≤ l.depth / 2 * (max |l.launch.1| |l.launch.2| * c.telDiam / 2) := mul_le_mul hdh g1 (by positivity) (by linarith)
      refine mul_le_mul_of_nonneg_right (div_le_div₀ (by positivity) g2 (by positivity) ?_) hr.le
      exact mul_le_mul_of_nonneg_left (by linarith) h0.le
    have := abs_sub p (dh * (x * c.telDiam / 2) / (w.height * (w.height + dh)) * rad2asec)
    rw [abs_of_nonneg hp0] at this
    linarith
  exact C34_any_direction c d D scis ps hc hD ht hs hp _ _ h hh hh0 (Or.inr ⟨hpos, by linarith⟩)
    ⟨_, hmem _ (by simp), axis _ _ hx (le_max_left _ _) (le_max_left _ _)⟩ ⟨_, hmem _ (by simp), axis _ _ hy (le_max_right _ _) (le_max_right _ _)⟩ hpup

/-- A beacon of 1 km at 90 km, launched from the rim of the pupil, meets the hypotheses. -/
example : ∃ d, calcParams { toyConfig none 1 [] with wfss := [⟨(10, 30), 90000, some ⟨1000, (1, 0)⟩, false, none, 1, false⟩] } = .ok d ∧ d.derived.isSome := by
  have h : (match calcParams { toyConfig none 1 [] with wfss := [⟨(10, 30), 90000, some ⟨1000, (1, 0)⟩, false, none, 1, false⟩] } with | .ok d => d.derived.isSome | .error _ => false) = true := by decide +kernel
  split at h
  · next d hd => exact ⟨d, hd, h⟩
  · cases h

/-! ### C35 -/

theorem sciCalc_idem (s t : Sci) (hp : s.pxls ≠ 0) (h : sciCalc s = .ok t) : sciCalc t = .ok t ∧ ∃ p, t.pxlScale = some p ∧ t.fov = some (p * t.pxls) := by
  obtain ⟨pos, ps, fov, n⟩ := s
  have hp : n ≠ 0 := hp
  have hq : (n : ℚ) ≠ 0 := by exact_mod_cast hp
  cases ps with
  | none =>
    cases fov with
    | none => cases h
    | some f =>
      simp only [sciCalc, if_neg hp, Except.ok.injEq] at h
      subst h
      simp only [sciCalc, div_mul_cancel₀ _ hq, if_true, if_neg hp, true_and]
      exact ⟨_, rfl, by rw [div_mul_cancel₀ _ hq]⟩
  | some p =>
    simp only [sciCalc] at h
    split_ifs at h with h2
    · simp only [Except.ok.injEq] at h
      subst h
      simp only [sciCalc, mul_div_cancel_right₀ _ hq, h2, if_true, if_neg hp, true_and]
      exact ⟨_, rfl, rfl⟩
    · simp only [Except.ok.injEq] at h
      subst h
      simp only [sciCalc, mul_div_cancel_right₀ _ hq, if_true, if_neg hp, true_and]
      exact ⟨_, rfl, rfl⟩

theorem sciCalc_idem_list (l r : List Sci) (hp : ∀ s ∈ l, s.pxls ≠ 0) (h : mapE sciCalc l = .ok r) :
    mapE sciCalc r = .ok r ∧ ∀ t ∈ r, ∃ p, t.pxlScale = some p ∧ t.fov = some (p * t.pxls) := by
  have f2 := mapE_ok _ _ _ h
  clear h
  induction f2 with
  | nil => exact ⟨rfl, by simp⟩
  | cons h1 _ ih =>
    obtain ⟨a, b⟩ := sciCalc_idem _ _ (hp _ (by simp)) h1
    obtain ⟨i1, i2⟩ := ih fun s hs => hp s (by simp [hs])
    refine ⟨by simp only [mapE, a, i1, Except.bind], ?_⟩
    intro t ht
    rcases List.mem_cons.mp ht with rfl | ht
    · exact b
    · exact i2 t ht

/-- **C35.** Missing: cameras of zero pixels (`C35_zero_pixels`).  Calculating the derived parameters again changes nothing. -/
theorem C35_stable_partial (c d : Config) (hp : ∀ s ∈ c.scis, s.pxls ≠ 0) (h : calcParams c = .ok d) : calcParams d = .ok d := by
  obtain ⟨scis, ps, hs, ht, hl, hpos, hh, hd⟩ := calcParams_ok c d h
  have hs2 := (sciCalc_idem_list _ _ hp hs).1
  have hw : ∀ w, gsCoords c.telDiam (wfsCalc c.loopTime w) = gsCoords c.telDiam w := fun w => rfl
  have hpos2 : positions d scis = .ok ps := by
    rw [hd]
    unfold positions at hpos ⊢
    simp only
    rw [← hpos, ← List.map_take]
    congr 1
    generalize c.wfss.take c.nGS = l
    induction l with
    | nil => rfl
    | cons w l ih => simp only [List.map_cons, mapE, ih, hw]
  have hwi : ∀ w, wfsCalc c.loopTime (wfsCalc c.loopTime w) = wfsCalc c.loopTime w := by
    intro w
    unfold wfsCalc
    simp only
    congr 1
    · split_ifs <;> simp_all
    · split_ifs <;> simp_all
  unfold calcParams
  rw [hd] at hpos2 ⊢
  simp only [hs2, Except.bind, if_neg ht, List.length_map, if_neg hl, hpos2, if_neg hh, Option.getD_some, List.map_map, Except.ok.injEq, Config.mk.injEq, true_and]
  refine ⟨?_, ?_, ?_⟩
  · apply List.map_congr_left; intro w _; exact hwi w
  · apply List.map_congr_left; intro w _; rfl
  · rw [← List.map_take, List.any_map]; rfl

/-- What a calculation sets: every sensor has an exposure time, every mirror a diameter, every camera a pixel scale and field of view that agree, and outer scales are given. -/
theorem C35_complete (c d : Config) (hp : ∀ s ∈ c.scis, s.pxls ≠ 0) (h : calcParams c = .ok d) :
    (∀ w ∈ d.wfss, ∃ t, w.exposure = some t) ∧ (∀ x ∈ d.dms, ∃ t, x = some t) ∧ (∀ s ∈ d.scis, ∃ p, s.pxlScale = some p ∧ s.fov = some (p * s.pxls)) ∧
      (∃ l, d.L0 = some l) := by
  obtain ⟨scis, ps, hs, ht, hl, hpos, hh, hd⟩ := calcParams_ok c d h
  refine ⟨?_, ?_, ?_, by rw [hd]; exact ⟨_, rfl⟩⟩
  · rw [hd]; intro w hw
    obtain ⟨v, _, rfl⟩ := List.mem_map.mp hw
    unfold wfsCalc
    simp only
    split_ifs with hv
    · exact ⟨_, rfl⟩
    · cases he : v.exposure with
      | none => simp [he] at hv
      | some t => exact ⟨t, rfl⟩
  · rw [hd]; intro x hx
    obtain ⟨v, _, rfl⟩ := List.mem_map.mp hx
    exact ⟨_, rfl⟩
  · rw [hd]; exact (sciCalc_idem_list _ _ hp hs).2

example : let c := calcParams (toyConfig none 1 [⟨(0, 0), some 2, some 7, 10⟩, ⟨(0, 0), none, some 7, 10⟩])
    c.map (fun d => d.scis.map fun s => (s.pxlScale, s.fov)) = .ok [(some 2, some 20), (some (7 / 10), some 7)] ∧ c.map (·.dms) = .ok [some 8, some 9] ∧
    c.map (fun d => d.wfss.map fun w => (w.exposure, w.fieldStop)) = .ok [(some (1 / 400), true)] ∧ c.map (·.L0) = .ok (some [10000000000, 10000000000]) := by decide +kernel

/-- **C35 (finding).** A camera of zero pixels with a pixel scale passes the first calculation and fails the second. -/
theorem C35_zero_pixels : ∃ s t, sciCalc s = .ok t ∧ sciCalc t = .error .zeroDivisionError :=
  ⟨⟨(0, 0), some 1, none, 0⟩, _, rfl, by decide +kernel⟩

private theorem mapE_fails {α β : Type} (f : α → Except PyErr β) (e : PyErr) (he : ∀ a e', f a = .error e' → e' = e) (l : List α) : mapE f l = .error e ↔ ∃ a ∈ l, f a = .error e := by
  induction l with
  | nil => simp [mapE]
  | cons a l ih =>
    simp only [mapE, List.mem_cons, exists_eq_or_imp]
    cases ha : f a with
    | error e' => simp [Except.bind, he a e' ha]
    | ok b =>
      simp only [Except.bind, reduceCtorEq, false_or, ← ih]
      cases hl : mapE f l <;> simp

/-- The configuration can describe a telescope at all: it has a size and layers, and there are sections for the sensors and cameras announced. -/
def Configured (c : Config) : Prop := c.telDiam ≠ 0 ∧ c.nGS ≤ c.wfss.length ∧ c.nSci ≤ c.scis.length ∧ c.heights ≠ []

/-- **C35 (refusals).**  Apart from cameras without pixels or without both scale and field, the calculation fails exactly without telescope diameter, without a section for an announced sensor or camera, without layers, or with an
elongated beacon on the ground; these are looked at in this order. -/
theorem C35_refused (c : Config) (hs : ∀ s ∈ c.scis, s.pxls ≠ 0 ∧ (s.pxlScale ≠ none ∨ s.fov ≠ none)) (e : PyErr) :
    calcParams c = .error e ↔
      (c.telDiam = 0 ∧ e = .zeroDivisionError) ∨ (c.telDiam ≠ 0 ∧ (c.wfss.length < c.nGS ∨ c.scis.length < c.nSci) ∧ e = .indexError) ∨
      (c.telDiam ≠ 0 ∧ c.nGS ≤ c.wfss.length ∧ c.nSci ≤ c.scis.length ∧ c.heights = [] ∧ e = .valueError) ∨
      (Configured c ∧ (∃ w ∈ c.wfss.take c.nGS, ∃ l, w.lgs = some l ∧ l.depth ≠ 0 ∧ (w.height = 0 ∨ 2 * w.height = l.depth ∨ 2 * w.height = -l.depth)) ∧ e = .overflowError) := by
  have hok : ∀ l : List Sci, (∀ s ∈ l, s.pxls ≠ 0 ∧ (s.pxlScale ≠ none ∨ s.fov ≠ none)) → ∃ r, mapE sciCalc l = .ok r ∧ r.length = l.length := by
    intro l hl
    induction l with
    | nil => exact ⟨[], rfl, rfl⟩
    | cons s l ih =>
      obtain ⟨r, hr, hn⟩ := ih fun s hs => hl s (by simp [hs])
      have h1 : ∃ t, sciCalc s = .ok t := by
        obtain ⟨h0, h1⟩ := hl s (by simp)
        obtain ⟨pos, sc, fov, px⟩ := s
        simp only at h0 h1
        unfold sciCalc
        cases sc with
        | some p =>
          simp only [h0, if_false]
          split_ifs <;> exact ⟨_, rfl⟩
        | none =>
          cases fov with
          | none => simp at h1
          | some f => simp only [h0, if_false]; exact ⟨_, rfl⟩
      obtain ⟨t, ht⟩ := h1
      exact ⟨t :: r, by simp only [mapE, ht, hr, Except.bind], by simp [hn]⟩
  obtain ⟨scis, h1, h2⟩ := hok c.scis hs
  have hg : ∀ e', positions c scis = .error e' ↔ (∃ w ∈ c.wfss.take c.nGS, ∃ l, w.lgs = some l ∧ l.depth ≠ 0 ∧ (w.height = 0 ∨ 2 * w.height = l.depth ∨ 2 * w.height = -l.depth)) ∧ e' = .overflowError := by
    intro e'
    have hm := mapE_fails (gsCoords c.telDiam) .overflowError (fun a e'' h => ((C34_ground _ _ _).mp h).1) (c.wfss.take c.nGS)
    simp only [C34_ground, true_and] at hm
    rw [← hm]
    unfold positions
    cases hmm : mapE (gsCoords c.telDiam) (c.wfss.take c.nGS) with
    | ok r => simp [Except.bind]
    | error e'' =>
      have : e'' = .overflowError := by
        clear hm hs h1 h2 hok
        generalize c.wfss.take c.nGS = l at hmm
        induction l with
        | nil => cases hmm
        | cons a l ih =>
          simp only [mapE] at hmm
          cases ha : gsCoords c.telDiam a with
          | error e3 =>
            rw [ha] at hmm
            cases hmm
            exact ((C34_ground _ _ _).mp ha).1
          | ok b =>
            rw [ha] at hmm
            simp only [Except.bind] at hmm
            cases hl : mapE (gsCoords c.telDiam) l with
            | error e4 =>
              rw [hl] at hmm
              cases hmm
              exact ih hl
            | ok r => rw [hl] at hmm; cases hmm
      subst this
      simp only [Except.bind, Except.error.injEq, true_and]
      exact eq_comm
  unfold calcParams Configured
  simp only [h1, Except.bind, h2]
  by_cases ht : c.telDiam = 0
  · simp [ht, eq_comm]
  by_cases hl : c.wfss.length < c.nGS ∨ c.scis.length < c.nSci
  · have : ¬ (c.nGS ≤ c.wfss.length ∧ c.nSci ≤ c.scis.length) := by omega
    simp only [ht, hl, if_true, if_false, false_and, false_or, true_and, not_false_eq_true, ne_eq, Except.error.injEq]
    constructor
    · intro h; exact .inl h.symm
    · rintro (h | h | h)
      · exact h.symm
      · exact absurd ⟨h.1, h.2.1⟩ this
      · exact absurd ⟨h.1.1, h.1.2.1⟩ this
  have hl' : c.nGS ≤ c.wfss.length ∧ c.nSci ≤ c.scis.length := by omega
  by_cases hh : c.heights = []
  · simp [ht, hl, hl', hh, eq_comm]
  simp only [ht, hl, hl', hh, if_false, false_and, and_false, false_or, true_and, not_false_eq_true, ne_eq, ← hg]
  cases positions c scis <;> simp

example : (calcParams { toyConfig none 1 [] with heights := [] }, calcParams (toyConfig none 2 []), calcParams { toyConfig none 1 [] with wfss := [⟨(10, 30), 500, some ⟨1000, (1, 0)⟩, false, none, 1, false⟩] }) =
    (.error .valueError, .error .indexError, .error .overflowError) := by decide +kernel

/-! ### C61: elongated beacons -/

/-- The angle (radians) at which a point of the beam at height `h` appears: the beam starts at `xl` on the ground and passes the guide star, at angle `θ` and height `H`. -/
def beamAngle (θ xl H h : ℚ) : ℚ := (xl + (H * θ - xl) * (h / H)) / h

/-- **C61 (on axis).** For a guide star on axis every layer of the beacon is observed where the launched beam passes. -/
theorem C61_on_axis_partial (xl H h : ℚ) (hH : H ≠ 0) (hh : h ≠ 0) : elongPos 0 xl H h = beamAngle 0 xl H h * rad2asec := by
  unfold elongPos beamAngle
  simp only
  have : H + (h - H) = h := by ring
  rw [this]
  field_simp
  ring

/-- **C61 (violated off axis).** The position is converted from arc seconds in the wrong direction and added twice: an off-axis guide star is never observed in its direction, not even
at the height of the guide star. -/
theorem C61_off_axis_violated (pos xl H : ℚ) (hH : H ≠ 0) : elongPos pos xl H H = 2 * rad2asec ^ 2 * pos ∧ (elongPos pos xl H H = beamAngle (pos * asec2rad) xl H H * rad2asec ↔ pos = 0) := by
  have e : elongPos pos xl H H = 2 * rad2asec ^ 2 * pos := by
    unfold elongPos; simp only [sub_self, zero_mul, zero_div, sub_zero]; ring
  refine ⟨e, ?_⟩
  rw [e]
  have hb : beamAngle (pos * asec2rad) xl H H * rad2asec = pos := by
    unfold beamAngle
    have : rad2asec ≠ 0 := by unfold rad2asec; norm_num
    unfold asec2rad
    field_simp
    ring
  rw [hb]
  constructor
  · intro h
    have : (2 * rad2asec ^ 2 - 1) * pos = 0 := by linarith
    rcases mul_eq_zero.mp this with h | h
    · exfalso; revert h; unfold rad2asec; norm_num
    · exact h
  · rintro rfl; simp

example : elongPos 0 2 90000 91000 = -(1000 * 2 / (90000 * 91000)) * rad2asec := by decide +kernel

/-! ### C36 -/

/-- **C36 (attributes).** Setting an attribute succeeds exactly for the parameters of the class, and then changes nothing else. -/
theorem C36_setattr (s : Schema) (a : Attrs) (name : String) (v : Val) :
    (name ∈ s.required ∨ name ∈ s.calculated ∨ name = "N" ∨ (∃ d, (name, d) ∈ s.optional) → ∃ b, setattr s a name v = .ok b ∧ b name = some v ∧ ∀ n, n ≠ name → b n = a n) ∧
      (¬ (name ∈ s.required ∨ name ∈ s.calculated ∨ name = "N" ∨ ∃ d, (name, d) ∈ s.optional) → setattr s a name v = .error .configurationError) := by
  have hiff : name ∈ s.allowed ↔ (name ∈ s.required ∨ name ∈ s.calculated ∨ name = "N" ∨ ∃ d, (name, d) ∈ s.optional) := by
    simp [Schema.allowed]
  unfold setattr
  constructor
  · intro h
    rw [if_pos (hiff.mpr h)]
    exact ⟨_, rfl, by simp, fun n hn => by simp [hn]⟩
  · intro h
    rw [if_neg fun hh => h (hiff.mp hh)]

/-- What the file says about a parameter: its value, nothing, or something unusable. -/
inductive Entry where
  | value (v : Val)
  | missing
  | unusable

/-- The entry of parameter `p` for component `N`. -/
def entry (file : String → Option Val) (N : Option ℕ) (p : String) : Entry :=
  match file p, N with
  | none, _ => .missing
  | some v, none => .value v
  | some (.seq l), some k => match l[k]? with | some v => .value v | none => .unusable
  | some (.dict d), some k => match d.lookup k with | some v => .value v | none => .missing
  | some (.atom _), some _ => .unusable

theorem fetch_entry (file : String → Option Val) (N : Option ℕ) (p : String) :
    match entry file N p with
    | .value v => fetch file N p = .ok v
    | .missing => fetch file N p = .error .keyError
    | .unusable => ∃ e, e ≠ .keyError ∧ fetch file N p = .error e := by
  unfold entry fetch
  cases hf : file p with
  | none => rfl
  | some v =>
    cases N with
    | none => rfl
    | some k =>
      cases v with
      | atom n => exact ⟨.typeError, by simp, rfl⟩
      | seq l =>
        simp only [Val.item]
        cases l[k]? with
        | none => exact ⟨.indexError, by simp, rfl⟩
        | some v => rfl
      | dict d =>
        simp only [Val.item]
        cases d.lookup k with
        | none => rfl
        | some v => rfl

theorem setattr_ok (s : Schema) (a : Attrs) (name : String) (v : Val) (h : name ∈ s.allowed) : setattr s a name v = .ok fun n => if n = name then some v else a n := by
  unfold setattr; rw [if_pos h]

/-- Loading the required parameters. -/
theorem required_spec (s : Schema) (file : String → Option Val) (N : Option ℕ) (l : List String) (hl : ∀ p ∈ l, p ∈ s.allowed) (a : Attrs) :
    ((∀ p ∈ l, ∃ v, entry file N p = .value v) → ∃ b, foldE (loadRequired s file N) a l = .ok b ∧ (∀ p ∈ l, ∀ v, entry file N p = .value v → b p = some v) ∧ ∀ n, n ∉ l → b n = a n) ∧
      (¬ (∀ p ∈ l, ∃ v, entry file N p = .value v) → foldE (loadRequired s file N) a l = .error .configurationError) := by
  induction l generalizing a with
  | nil => exact ⟨fun _ => ⟨a, rfl, by simp, by simp⟩, fun h => absurd (by simp) h⟩
  | cons p l ih =>
    have hp := fetch_entry file N p
    cases he : entry file N p with
    | value v =>
      rw [he] at hp
      have hstep : loadRequired s file N a p = .ok fun n => if n = p then some v else a n := by
        unfold loadRequired; rw [hp]; exact setattr_ok s a p v (hl p (by simp))
      obtain ⟨ih1, ih2⟩ := ih (fun q hq => hl q (by simp [hq])) (fun n => if n = p then some v else a n)
      simp only [foldE, hstep, Except.bind]
      constructor
      · intro hall
        obtain ⟨b, hb, hv, hn⟩ := ih1 fun q hq => hall q (by simp [hq])
        refine ⟨b, hb, ?_, ?_⟩
        · intro q hq w hw
          rcases List.mem_cons.mp hq with rfl | hq
          · by_cases hql : q ∈ l
            · exact hv q hql w hw
            · rw [hn q hql, if_pos rfl]
              rw [he] at hw; cases hw; rfl
          · exact hv q hq w hw
        · intro n hnl
          rw [hn n fun h => hnl (by simp [h]), if_neg fun h => hnl (by simp [h])]
      · intro hnall
        apply ih2
        intro h
        apply hnall
        intro q hq
        rcases List.mem_cons.mp hq with rfl | hq
        · exact ⟨v, he⟩
        · exact h q hq
    | missing =>
      rw [he] at hp
      have hstep : loadRequired s file N a p = .error .configurationError := by unfold loadRequired; rw [hp]
      refine ⟨fun h => ?_, fun _ => by simp only [foldE, hstep, Except.bind]⟩
      obtain ⟨v, hv⟩ := h p (by simp)
      rw [he] at hv; cases hv
    | unusable =>
      rw [he] at hp
      obtain ⟨e, _, hp⟩ := hp
      have hstep : loadRequired s file N a p = .error .configurationError := by unfold loadRequired; rw [hp]
      refine ⟨fun h => ?_, fun _ => by simp only [foldE, hstep, Except.bind]⟩
      obtain ⟨v, hv⟩ := h p (by simp)
      rw [he] at hv; cases hv

/-- Loading the optional parameters. -/
theorem optional_spec (s : Schema) (file : String → Option Val) (N : Option ℕ) (l : List (String × Val)) (hl : ∀ p ∈ l, p.1 ∈ s.allowed)
    (hd : ∀ p ∈ l, ∀ q ∈ l, p.1 = q.1 → p.2 = q.2) (a : Attrs) :
    ((∀ p ∈ l, entry file N p.1 ≠ .unusable) → ∃ b, foldE (loadOptional s file N) a l = .ok b ∧
        (∀ p ∈ l, (∀ v, entry file N p.1 = .value v → b p.1 = some v) ∧ (entry file N p.1 = .missing → b p.1 = some p.2)) ∧ ∀ n, n ∉ l.map Prod.fst → b n = a n) ∧
      (¬ (∀ p ∈ l, entry file N p.1 ≠ .unusable) → foldE (loadOptional s file N) a l = .error .configurationError) := by
  induction l generalizing a with
  | nil => exact ⟨fun _ => ⟨a, rfl, by simp, by simp⟩, fun h => absurd (by simp) h⟩
  | cons p l ih =>
    have hp := fetch_entry file N p.1
    -- both usable cases store a value
    have good : ∀ v : Val, loadOptional s file N a p = setattr s a p.1 v → (∀ w, entry file N p.1 = .value w → w = v) → (entry file N p.1 = .missing → v = p.2) →
        entry file N p.1 ≠ .unusable →
        ((∀ q ∈ p :: l, entry file N q.1 ≠ .unusable) → ∃ b, foldE (loadOptional s file N) a (p :: l) = .ok b ∧
          (∀ q ∈ p :: l, (∀ v, entry file N q.1 = .value v → b q.1 = some v) ∧ (entry file N q.1 = .missing → b q.1 = some q.2)) ∧ ∀ n, n ∉ (p :: l).map Prod.fst → b n = a n) ∧
        (¬ (∀ q ∈ p :: l, entry file N q.1 ≠ .unusable) → foldE (loadOptional s file N) a (p :: l) = .error .configurationError) := by
      intro v hstep hval hmis hus
      rw [setattr_ok s a p.1 v (hl p (by simp))] at hstep
      obtain ⟨ih1, ih2⟩ := ih (fun q hq => hl q (by simp [hq])) (fun q hq r hr => hd q (by simp [hq]) r (by simp [hr])) (fun n => if n = p.1 then some v else a n)
      simp only [foldE, hstep, Except.bind]
      constructor
      · intro hall
        obtain ⟨b, hb, hv, hn⟩ := ih1 fun q hq => hall q (by simp [hq])
        refine ⟨b, hb, ?_, ?_⟩
        · intro q hq
          rcases List.mem_cons.mp hq with rfl | hq
          · by_cases hql : q.1 ∈ l.map Prod.fst
            · obtain ⟨r, hr, hrq⟩ := List.mem_map.mp hql
              have := hv r hr
              rw [hrq] at this
              refine ⟨this.1, fun hm => ?_⟩
              rw [this.2 hm, hd r (by simp [hr]) q (by simp) hrq]
            · rw [hn q.1 hql, if_pos rfl]
              exact ⟨fun w hw => by rw [hval w hw], fun hm => by rw [hmis hm]⟩
          · exact hv q hq
        · intro n hnl
          simp only [List.map_cons, List.mem_cons, not_or] at hnl
          rw [hn n hnl.2, if_neg hnl.1]
      · intro hnall
        apply ih2
        intro h
        apply hnall
        intro q hq
        rcases List.mem_cons.mp hq with rfl | hq
        · exact hus
        · exact h q hq
    cases he : entry file N p.1 with
    | value v =>
      rw [he] at hp
      exact good v (by unfold loadOptional; rw [hp]) (fun w hw => by rw [he] at hw; cases hw; rfl) (fun hm => by rw [he] at hm; cases hm) (by rw [he]; simp)
    | missing =>
      rw [he] at hp
      exact good p.2 (by unfold loadOptional; rw [hp]) (fun w hw => by rw [he] at hw; cases hw) (fun _ => rfl) (by rw [he]; simp)
    | unusable =>
      rw [he] at hp
      obtain ⟨e, hne, hp⟩ := hp
      have hstep : loadOptional s file N a p = .error .configurationError := by
        unfold loadOptional; rw [hp]; cases e <;> first | rfl | exact absurd rfl hne
      exact ⟨fun h => absurd he (h p (by simp)), fun _ => by simp only [foldE, hstep, Except.bind]⟩

/-- **C36.** For every class of parameters in which a name has one default and required and optional names differ, every file and every component: loading succeeds exactly if every required
parameter is given and no optional one is unusable; then every required parameter has the value in the file, every optional one the value in the file or else its default, and
nothing else is touched.  Otherwise it raises `ConfigurationError`. -/
theorem C36_load (s : Schema) (N : Option ℕ) (file : String → Option Val) (a : Attrs) (hdef : ∀ p ∈ s.optional, ∀ q ∈ s.optional, p.1 = q.1 → p.2 = q.2)
    (hdis : ∀ p ∈ s.optional, p.1 ∉ s.required) :
    ((∀ p ∈ s.required, ∃ v, entry file N p = .value v) ∧ (∀ p ∈ s.optional, entry file N p.1 ≠ .unusable) →
      ∃ b, loadParams s N file a = .ok b ∧ (∀ p ∈ s.required, ∀ v, entry file N p = .value v → b p = some v) ∧
        (∀ p ∈ s.optional, (∀ v, entry file N p.1 = .value v → b p.1 = some v) ∧ (entry file N p.1 = .missing → b p.1 = some p.2)) ∧
        ∀ n, n ∉ s.required → n ∉ s.optional.map Prod.fst → b n = a n) ∧
    (¬ ((∀ p ∈ s.required, ∃ v, entry file N p = .value v) ∧ (∀ p ∈ s.optional, entry file N p.1 ≠ .unusable)) → loadParams s N file a = .error .configurationError) := by
  obtain ⟨r1, r2⟩ := required_spec s file N s.required (fun p hp => by simp [Schema.allowed, hp]) a
  by_cases hr : ∀ p ∈ s.required, ∃ v, entry file N p = .value v
  · obtain ⟨b, hb, hbv, hbn⟩ := r1 hr
    obtain ⟨o1, o2⟩ := optional_spec s file N s.optional (fun p hp => by simp only [Schema.allowed, List.mem_append]; exact Or.inr (List.mem_map_of_mem hp)) hdef b
    constructor
    · intro ⟨_, ho⟩
      obtain ⟨e, he, hev, hen⟩ := o1 ho
      refine ⟨e, by simp only [loadParams, hb, Except.bind, he], ?_, hev, ?_⟩
      · intro p hp v hv
        rw [hen p ?_]
        · exact hbv p hp v hv
        · intro hm
          obtain ⟨q, hq, rfl⟩ := List.mem_map.mp hm
          exact hdis q hq hp
      · intro n h1 h2
        rw [hen n h2, hbn n h1]
    · intro h
      have := o2 fun ho => h ⟨hr, ho⟩
      simp only [loadParams, hb, Except.bind, this]
  · refine ⟨fun h => absurd h.1 hr, fun _ => ?_⟩
    simp only [loadParams, r2 hr, Except.bind]

theorem foldE_congr {α β : Type} (f g : β → α → Except PyErr β) (l : List α) (h : ∀ b, ∀ a ∈ l, f b a = g b a) (b : β) : foldE f b l = foldE g b l := by
  induction l generalizing b with
  | nil => rfl
  | cons a l ih =>
    simp only [foldE, h b a (by simp)]
    cases g b a with
    | error e => rfl
    | ok b' => exact ih (fun b a ha => h b a (by simp [ha])) b'

/-- **C36 (finding).** Names in the file that are no parameters are ignored without notice, so a misspelt optional parameter silently takes its default. -/
theorem C36_unknown_ignored (s : Schema) (N : Option ℕ) (file file' : String → Option Val) (a : Attrs)
    (h : ∀ p, (p ∈ s.required ∨ p ∈ s.optional.map Prod.fst) → file p = file' p) : loadParams s N file a = loadParams s N file' a := by
  unfold loadParams
  rw [foldE_congr (loadRequired s file N) (loadRequired s file' N) s.required (fun b p hp => by unfold loadRequired fetch; rw [h p (Or.inl hp)])]
  congr 1
  funext b
  exact foldE_congr _ _ _ (fun b p hp => by unfold loadOptional fetch; rw [h p.1 (Or.inr (List.mem_map_of_mem hp))]) b

/-- Two sensors: the second is loaded; `GSHeight` is given as a dictionary for sensor 0 only. -/
example : let s : Schema := ⟨["wavelength"], [("GSHeight", .atom 0), ("lgs", .atom 1)], ["dataStart"]⟩
    let file : String → Option Val := fun p => if p = "wavelength" then some (.seq [.atom 5, .atom 6]) else if p = "GSHeight" then some (.dict [(0, .atom 9)]) else none
    ∃ b, loadParams s (some 1) file (fun _ => none) = .ok b ∧ b "wavelength" = some (.atom 6) ∧ b "GSHeight" = some (.atom 0) ∧ b "lgs" = some (.atom 1) :=
  ⟨_, rfl, rfl, rfl, rfl⟩

end config

end Soapy.Props
