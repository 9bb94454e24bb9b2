/-
Property theorems C113: a parameter set before initialisation takes effect as if it were in the file.
-/
import Verif.Model.Edit
import Verif.Props.Config

namespace Soapy.Props

open Soapy.Conf

/-- Two configurations with the same derived parameters. -/
private theorem calcParams_congr (x y : Config) (h1 : x.pupil = y.pupil) (h2 : x.oversize = y.oversize) (h3 : x.nGS = y.nGS) (h4 : x.nSci = y.nSci) (h5 : x.loopTime = y.loopTime)
    (h6 : x.telDiam = y.telDiam) (h7 : x.heights = y.heights) (h8 : x.scrnNo = y.scrnNo) (h9 : mapE sciCalc x.scis = mapE sciCalc y.scis)
    (h10 : x.wfss.map (wfsCalc y.loopTime) = y.wfss.map (wfsCalc y.loopTime))
    (h11 : x.L0.getD (List.replicate y.scrnNo 10000000000) = y.L0.getD (List.replicate y.scrnNo 10000000000))
    (h12 : (x.dms.map fun d => some (d.getD y.telDiam)) = y.dms.map fun d => some (d.getD y.telDiam)) : calcParams x = calcParams y := by
  obtain ⟨xp, xo, xg, xs, xl, xt, xh, xn, xL, xw, xd, xc, xD⟩ := x
  obtain ⟨yp, yo, yg, ys, yl, yt, yh, yn, yL, yw, yd, yc, yD⟩ := y
  simp only at h1 h2 h3 h4 h5 h6 h7 h8 h9 h10 h11 h12
  subst h1 h2 h3 h4 h5 h6 h7 h8
  have hlen : xw.length = yw.length := by simpa using congrArg List.length h10
  have hgs : ∀ (n : ℕ) (l m : List Wfs), l.map (wfsCalc xl) = m.map (wfsCalc xl) → mapE (gsCoords xt) (l.take n) = mapE (gsCoords xt) (m.take n) ∧
      ((l.take n).any fun w => w.physical) = ((m.take n).any fun w => w.physical) := by
    intro n l
    induction l generalizing n with
    | nil =>
      intro m h
      cases m with
      | nil => exact ⟨rfl, rfl⟩
      | cons b m => simp at h
    | cons a l ih =>
      intro m h
      cases m with
      | nil => simp at h
      | cons b m =>
        simp only [List.map_cons, List.cons.injEq] at h
        cases n with
        | zero => exact ⟨rfl, rfl⟩
        | succ n =>
          obtain ⟨e1, e2⟩ := ih n m h.2
          have g : gsCoords xt a = gsCoords xt b := by
            have e : gsCoords xt (wfsCalc xl a) = gsCoords xt (wfsCalc xl b) := by rw [h.1]
            exact e
          have p : a.physical = b.physical := by
            have e : (wfsCalc xl a).physical = (wfsCalc xl b).physical := by rw [h.1]
            exact e
          exact ⟨by simp only [List.take_succ_cons, mapE, g, e1], by simp only [List.take_succ_cons, List.any_cons, p, e2]⟩
  obtain ⟨g1, g2⟩ := hgs xg xw yw h10
  unfold calcParams positions
  simp only [h9, h10, h11, h12, hlen, g1, g2]

private theorem map_modify_congr {α β : Type} (l : List α) (i : ℕ) (h f : α → α) (g : α → β) (h1 : ∀ a ∈ l, g (h a) = g a) (h2 : ∀ a, l[i]? = some a → g (f (h a)) = g (f a)) :
    ((l.map h).modify i f).map g = (l.modify i f).map g := by
  induction l generalizing i with
  | nil => cases i <;> simp
  | cons a l ih =>
    cases i with
    | zero =>
      simp only [List.map_cons, List.modify_zero_cons, List.map_map, List.cons.injEq]
      refine ⟨h2 a (by simp), ?_⟩
      exact List.map_congr_left fun b hb => h1 b (by simp [hb])
    | succ i =>
      simp only [List.map_cons, List.modify_succ_cons, List.cons.injEq]
      exact ⟨h1 a (by simp), ih i (fun b hb => h1 b (by simp [hb])) fun b hb => h2 b (by simpa using hb)⟩

private theorem mapE_modify_congr (l r : List Sci) (i : ℕ) (f : Sci → Sci) (h : mapE sciCalc l = .ok r) (h1 : ∀ a ∈ l, ∀ b, sciCalc a = .ok b → sciCalc b = .ok b)
    (h2 : ∀ a b, l[i]? = some a → sciCalc a = .ok b → sciCalc (f b) = sciCalc (f a)) : mapE sciCalc (r.modify i f) = mapE sciCalc (l.modify i f) := by
  induction l generalizing i r with
  | nil =>
    cases h
    cases i <;> simp
  | cons a l ih =>
    simp only [mapE] at h
    cases ha : sciCalc a with
    | error e => rw [ha] at h; cases h
    | ok b =>
      rw [ha] at h
      cases hl : mapE sciCalc l with
      | error e => rw [hl] at h; cases h
      | ok bs =>
        rw [hl] at h
        cases h
        cases i with
        | zero =>
          simp only [List.modify_zero_cons, mapE]
          rw [h2 a b (by simp) ha]
          have hid : mapE sciCalc bs = mapE sciCalc l := by
            have := ih bs l.length hl (fun a' ha' => h1 a' (by simp [ha'])) (fun a' b' h' => by simp at h')
            rwa [List.modify_eq_self (by rw [(mapE_ok _ _ _ hl).length_eq]), List.modify_eq_self le_rfl] at this
          rw [hid]
        | succ i =>
          simp only [List.modify_succ_cons, mapE]
          rw [ih bs i hl (fun a' ha' => h1 a' (by simp [ha'])) (fun a' b' h' => h2 a' b' (by simpa using h')), h1 a (by simp) b ha, ha]

/-- The parameters that were filled in when the file was loaded and do not follow when what they were made of is changed. -/
def Sticky (c : Config) : Edit → Prop
  | .loopTime t => t ≠ c.loopTime ∧ c.loopTime ≠ 0 ∧ ∃ w ∈ c.wfss, w.exposure = none ∨ w.exposure = some 0
  | .telDiam q => q ≠ c.telDiam ∧ none ∈ c.dms
  | .scrnNo n => n ≠ c.scrnNo ∧ c.L0 = none
  | .gsSubaps i n => n ≠ 1 ∧ ∃ w, c.wfss[i]? = some w ∧ w.nxSubaps = 1 ∧ w.fieldStop = false
  | .sciPxlScale i p => p = none ∧ ∃ s q, c.scis[i]? = some s ∧ s.pxlScale = some q ∧ s.fov ≠ some (q * s.pxls)
  | .sciFov i f => ∃ s, c.scis[i]? = some s ∧ s.pxlScale = none ∧ s.fov ≠ some f
  | .sciPxls i n => ∃ s, c.scis[i]? = some s ∧ s.pxlScale = none ∧ s.fov ≠ some 0 ∧ n ≠ s.pxls
  | _ => False

private theorem sciCalc_ok_cases (s t : Sci) (hp : s.pxls ≠ 0) (h : sciCalc s = .ok t) :
    t.pos = s.pos ∧ t.pxls = s.pxls ∧ ((∃ p, s.pxlScale = some p ∧ t.pxlScale = some p ∧ t.fov = some (p * s.pxls)) ∨
      ∃ f, s.pxlScale = none ∧ s.fov = some f ∧ t.pxlScale = some (f / s.pxls) ∧ t.fov = some f) := by
  obtain ⟨pos, ps, fov, n⟩ := s
  have hp : n ≠ 0 := hp
  have hq : (n : ℚ) ≠ 0 := by exact_mod_cast hp
  cases ps with
  | none =>
    cases fov with
    | none => cases h
    | some f =>
      simp only [sciCalc, if_neg hp, Except.ok.injEq] at h
      subst h
      exact ⟨rfl, rfl, .inr ⟨f, rfl, rfl, rfl, rfl⟩⟩
  | some p =>
    simp only [sciCalc, if_neg hp] at h
    split_ifs at h with h2
    · simp only [Except.ok.injEq] at h
      subst h
      exact ⟨rfl, rfl, .inl ⟨p, rfl, by simp only [mul_div_cancel_right₀ _ hq], h2⟩⟩
    · simp only [Except.ok.injEq] at h
      subst h
      exact ⟨rfl, rfl, .inl ⟨p, rfl, rfl, rfl⟩⟩

/-- The value of `sciCalc` with a pixel scale. -/
private theorem sciCalc_some (pos : ℚ × ℚ) (p : ℚ) (fov : Option ℚ) (n : ℕ) (hn : n ≠ 0) : sciCalc ⟨pos, some p, fov, n⟩ = .ok ⟨pos, some p, some (p * n), n⟩ := by
  have hq : (n : ℚ) ≠ 0 := by exact_mod_cast hn
  simp only [sciCalc, if_neg hn]
  split_ifs with h
  · rw [mul_div_cancel_right₀ _ hq, h]
  · rfl

private theorem sciCalc_none (pos : ℚ × ℚ) (f : ℚ) (n : ℕ) (hn : n ≠ 0) : sciCalc ⟨pos, none, some f, n⟩ = .ok ⟨pos, some (f / n), some f, n⟩ := by
  simp only [sciCalc, if_neg hn]

private theorem fromFile_eq (c : Config) (hp : ∀ s ∈ c.scis, s.pxls ≠ 0) : fromFile c = calcParams c := by
  unfold fromFile
  cases h : calcParams c with
  | error e => rfl
  | ok d => exact C35_stable_partial c d hp h

private theorem mapE_get (l r : List Sci) (h : mapE sciCalc l = .ok r) (i : ℕ) (s : Sci) (hs : l[i]? = some s) : ∃ t, r[i]? = some t ∧ sciCalc s = .ok t := by
  have := mapE_ok _ _ _ h
  induction this generalizing i with
  | nil => simp at hs
  | cons hab _ ih =>
    cases i with
    | zero => simp at hs; subst hs; exact ⟨_, by simp, hab⟩
    | succ i => simpa using ih (mapE_of_forall _ _ _ (by assumption)) i (by simpa using hs)

private theorem wfsCalc_wfsCalc (t u : ℚ) (w : Wfs) (h : t = u ∨ t = 0 ∨ ¬ (w.exposure = none ∨ w.exposure = some 0)) : wfsCalc u (wfsCalc t w) = wfsCalc u w := by
  obtain ⟨pos, hh, lgs, ph, ex, nx, fs⟩ := w
  unfold wfsCalc
  simp only [Wfs.mk.injEq, true_and]
  simp only at h
  constructor
  · rcases h with h | h | h
    · subst h; split_ifs <;> simp_all
    · subst h; split_ifs <;> simp_all
    · rw [if_neg h]
  · split_ifs <;> simp_all

/-- **C113 (exact).** A parameter set after loading and before initialising leads to the configuration that a file with that value gives, except for the parameters listed in `Sticky`, where it never does. -/
theorem C113_exact_partial (c d r : Config) (e : Edit) (hc : calcParams c = .ok d) (hp : ∀ s ∈ c.scis, s.pxls ≠ 0) (he : ∀ s ∈ (e.apply c).scis, s.pxls ≠ 0)
    (hr : fromFile (e.apply c) = .ok r) : session c [e] = .ok r ↔ ¬ Sticky c e := by
  rw [fromFile_eq _ he] at hr
  have hses : session c [e] = calcParams (e.apply d) := by simp only [session, hc, Except.bind, List.foldl]
  rw [hses, ← hr]
  obtain ⟨scis, ps, hs, ht, hl, hpos, hh, hd⟩ := calcParams_ok c d hc
  have hidem : ∀ a ∈ c.scis, ∀ b, sciCalc a = .ok b → sciCalc b = .ok b := fun a ha b hab => (sciCalc_idem a b (hp a ha) hab).1
  have hscis : mapE sciCalc scis = mapE sciCalc c.scis := by rw [hs]; exact (sciCalc_idem_list _ _ hp hs).1
  have hw : ∀ w, wfsCalc c.loopTime (wfsCalc c.loopTime w) = wfsCalc c.loopTime w := fun w => wfsCalc_wfsCalc _ _ w (.inl rfl)
  have hwl : (c.wfss.map (wfsCalc c.loopTime)).map (wfsCalc c.loopTime) = c.wfss.map (wfsCalc c.loopTime) := by
    rw [List.map_map]; exact List.map_congr_left fun w _ => hw w
  have hdm : ((c.dms.map fun d => some (d.getD c.telDiam)).map fun d => some (d.getD c.telDiam)) = c.dms.map fun d => some (d.getD c.telDiam) := by
    rw [List.map_map]; exact List.map_congr_left fun w _ => rfl
  have hsci : ∀ i f, (∀ a b, c.scis[i]? = some a → sciCalc a = .ok b → sciCalc (f b) = sciCalc (f a)) → mapE sciCalc (scis.modify i f) = mapE sciCalc (c.scis.modify i f) :=
    fun i f h => mapE_modify_congr _ _ i f hs hidem h
  have hwfs : ∀ i f, (∀ a, c.wfss[i]? = some a → wfsCalc c.loopTime (f (wfsCalc c.loopTime a)) = wfsCalc c.loopTime (f a)) →
      ((c.wfss.map (wfsCalc c.loopTime)).modify i f).map (wfsCalc c.loopTime) = (c.wfss.modify i f).map (wfsCalc c.loopTime) :=
    fun i f h => map_modify_congr _ i _ f _ (fun a _ => hw a) h
  subst hd
  have hL : ((some (c.L0.getD (List.replicate c.scrnNo 10000000000))).getD (List.replicate c.scrnNo 10000000000)) = c.L0.getD (List.replicate c.scrnNo 10000000000) := rfl
  -- what a success says about the parts
  have parts : ∀ x y : Config, calcParams x = calcParams y → calcParams y = .ok r → x.wfss.map (wfsCalc x.loopTime) = y.wfss.map (wfsCalc y.loopTime) ∧
      x.L0.getD (List.replicate x.scrnNo 10000000000) = y.L0.getD (List.replicate y.scrnNo 10000000000) ∧
      ((x.dms.map fun d => some (d.getD x.telDiam)) = y.dms.map fun d => some (d.getD y.telDiam)) ∧ mapE sciCalc x.scis = .ok r.scis ∧ mapE sciCalc y.scis = .ok r.scis := by
    intro x y hxy hy
    obtain ⟨s1, p1, a1, _, _, _, _, b1⟩ := calcParams_ok x r (hxy.trans hy)
    obtain ⟨s2, p2, a2, _, _, _, _, b2⟩ := calcParams_ok y r hy
    refine ⟨?_, ?_, ?_, ?_, ?_⟩
    · have e1 := congrArg Config.wfss b1
      have e2 := congrArg Config.wfss b2
      exact e1.symm.trans e2
    · have e1 := congrArg Config.L0 b1
      have e2 := congrArg Config.L0 b2
      exact Option.some.inj (e1.symm.trans e2)
    · have e1 := congrArg Config.dms b1
      have e2 := congrArg Config.dms b2
      exact e1.symm.trans e2
    · have e1 : r.scis = s1 := congrArg Config.scis b1
      rw [e1]; exact a1
    · have e2 : r.scis = s2 := congrArg Config.scis b2
      rw [e2]; exact a2
  cases e with
  | pupilSize n =>
    simp only [Sticky, not_false_eq_true, iff_true]
    exact calcParams_congr _ _ rfl rfl rfl rfl rfl rfl rfl rfl hscis hwl hL hdm
  | simOversize q =>
    simp only [Sticky, not_false_eq_true, iff_true]
    exact calcParams_congr _ _ rfl rfl rfl rfl rfl rfl rfl rfl hscis hwl hL hdm
  | scrnHeights l =>
    simp only [Sticky, not_false_eq_true, iff_true]
    exact calcParams_congr _ _ rfl rfl rfl rfl rfl rfl rfl rfl hscis hwl hL hdm
  | outerScale l =>
    simp only [Sticky, not_false_eq_true, iff_true]
    exact calcParams_congr _ _ rfl rfl rfl rfl rfl rfl rfl rfl hscis hwl rfl hdm
  | gsPosition i p =>
    simp only [Sticky, not_false_eq_true, iff_true]
    exact calcParams_congr _ _ rfl rfl rfl rfl rfl rfl rfl rfl hscis (hwfs i _ fun a _ => congrArg (fun w : Wfs => { w with pos := p }) (hw a)) hL hdm
  | gsHeight i h =>
    simp only [Sticky, not_false_eq_true, iff_true]
    exact calcParams_congr _ _ rfl rfl rfl rfl rfl rfl rfl rfl hscis (hwfs i _ fun a _ => congrArg (fun w : Wfs => { w with height := h }) (hw a)) hL hdm
  | gsPhysical i b =>
    simp only [Sticky, not_false_eq_true, iff_true]
    exact calcParams_congr _ _ rfl rfl rfl rfl rfl rfl rfl rfl hscis (hwfs i _ fun a _ => congrArg (fun w : Wfs => { w with physical := b }) (hw a)) hL hdm
  | gsExposure i t =>
    simp only [Sticky, not_false_eq_true, iff_true]
    exact calcParams_congr _ _ rfl rfl rfl rfl rfl rfl rfl rfl hscis (hwfs i _ fun a _ => by have := hw a; unfold wfsCalc at this ⊢; simp_all) hL hdm
  | gsLaser i l =>
    simp only [Sticky, not_false_eq_true, iff_true]
    exact calcParams_congr _ _ rfl rfl rfl rfl rfl rfl rfl rfl hscis (hwfs i _ fun a _ => congrArg (fun w : Wfs => { w with lgs := some l }) (hw a)) hL hdm
  | gsFieldStop i b =>
    simp only [Sticky, not_false_eq_true, iff_true]
    exact calcParams_congr _ _ rfl rfl rfl rfl rfl rfl rfl rfl hscis (hwfs i _ fun a _ => by have := congrArg Wfs.exposure (hw a); simp only [wfsCalc, Wfs.mk.injEq, true_and] at this ⊢; exact ⟨this, rfl⟩) hL hdm
  | dmDiameter i x =>
    simp only [Sticky, not_false_eq_true, iff_true]
    exact calcParams_congr _ _ rfl rfl rfl rfl rfl rfl rfl rfl hscis hwl hL (map_modify_congr c.dms i (fun d => some (d.getD c.telDiam)) (fun _ => x) _ (fun a _ => rfl) fun a _ => rfl)
  | sciPosition i p =>
    simp only [Sticky, not_false_eq_true, iff_true]
    refine calcParams_congr _ _ rfl rfl rfl rfl rfl rfl rfl rfl (hsci i _ fun a b ha hab => ?_) hwl hL hdm
    have hpa := hp a (List.mem_of_getElem? ha)
    obtain ⟨_, e2, ⟨q, f1, f2, f3⟩ | ⟨f, f0, f1, f2, f3⟩⟩ := sciCalc_ok_cases a b hpa hab
    · rw [show ({ b with pos := p } : Sci) = ⟨p, some q, some (q * a.pxls), a.pxls⟩ by rw [f2, f3, e2], show ({ a with pos := p } : Sci) = ⟨p, some q, a.fov, a.pxls⟩ by rw [f1],
        sciCalc_some _ _ _ _ hpa, sciCalc_some _ _ _ _ hpa]
    · have hq : (a.pxls : ℚ) ≠ 0 := by exact_mod_cast hpa
      rw [show ({ b with pos := p } : Sci) = ⟨p, some (f / a.pxls), some f, a.pxls⟩ by rw [f2, f3, e2], show ({ a with pos := p } : Sci) = ⟨p, none, some f, a.pxls⟩ by rw [f0, f1],
        sciCalc_some _ _ _ _ hpa, sciCalc_none _ _ _ hpa, div_mul_cancel₀ _ hq]
  | loopTime t =>
    by_cases hst : Sticky c (.loopTime t)
    · simp only [hst, not_true_eq_false, iff_false]
      intro hcon
      obtain ⟨h1, h2, w, hwm, hwe⟩ := hst
      have := (parts _ _ hcon hr).1
      simp only [Edit.apply, List.map_map] at this
      have := List.map_inj_left.mp this w hwm
      have := congrArg Wfs.exposure this
      simp only [Function.comp, wfsCalc, if_pos hwe, reduceCtorEq, Option.some.injEq, h2, or_self, if_false] at this
      exact h1 this.symm
    · simp only [hst, not_false_eq_true, iff_true]
      refine calcParams_congr _ _ rfl rfl rfl rfl rfl rfl rfl rfl hscis ?_ hL hdm
      simp only [Edit.apply, List.map_map]
      refine List.map_congr_left fun w hwm => wfsCalc_wfsCalc _ _ w ?_
      by_contra hno
      push Not at hno
      exact hst ⟨fun h => hno.1 h.symm, hno.2.1, w, hwm, hno.2.2⟩
  | telDiam q =>
    by_cases hst : Sticky c (.telDiam q)
    · simp only [hst, not_true_eq_false, iff_false]
      intro hcon
      obtain ⟨h1, h2⟩ := hst
      have := (parts _ _ hcon hr).2.2.1
      simp only [Edit.apply, List.map_map] at this
      have := List.map_inj_left.mp this none h2
      simp only [Function.comp, Option.getD_none, Option.getD_some, Option.some.injEq] at this
      exact h1 this.symm
    · simp only [hst, not_false_eq_true, iff_true]
      refine calcParams_congr _ _ rfl rfl rfl rfl rfl rfl rfl rfl hscis hwl hL ?_
      simp only [Edit.apply, List.map_map]
      refine List.map_congr_left fun x hx => ?_
      cases x with
      | some v => rfl
      | none =>
        have : q = c.telDiam := by by_contra h; exact hst ⟨h, hx⟩
        rw [this]; rfl
  | scrnNo n =>
    by_cases hst : Sticky c (.scrnNo n)
    · simp only [hst, not_true_eq_false, iff_false]
      intro hcon
      obtain ⟨h1, h2⟩ := hst
      have := (parts _ _ hcon hr).2.1
      simp only [Edit.apply, h2, Option.getD_none, Option.getD_some] at this
      have := congrArg List.length this
      simp at this
      exact h1 this.symm
    · simp only [hst, not_false_eq_true, iff_true]
      refine calcParams_congr _ _ rfl rfl rfl rfl rfl rfl rfl rfl hscis hwl ?_ hdm
      simp only [Edit.apply, Option.getD_some]
      cases hL0 : c.L0 with
      | some v => rfl
      | none =>
        have : n = c.scrnNo := by by_contra h; exact hst ⟨h, hL0⟩
        rw [this]
  | gsSubaps i n =>
    by_cases hst : Sticky c (.gsSubaps i n)
    · simp only [hst, not_true_eq_false, iff_false]
      intro hcon
      obtain ⟨h1, w, hwi, hw1, hw2⟩ := hst
      have := (parts _ _ hcon hr).1
      simp only [Edit.apply] at this
      have := congrArg (fun l => l[i]?) this
      simp only [List.getElem?_map, List.getElem?_modify_eq, hwi, Option.map_some, Option.map_eq_map, Option.some.injEq] at this
      have := congrArg Wfs.fieldStop this
      simp only [wfsCalc, hw1, hw2, h1, and_self, if_true, false_and, if_false, reduceCtorEq] at this
    · simp only [hst, not_false_eq_true, iff_true]
      refine calcParams_congr _ _ rfl rfl rfl rfl rfl rfl rfl rfl hscis (hwfs i _ fun a ha => ?_) hL hdm
      have hh := hw a
      have : n = 1 ∨ ¬ (a.nxSubaps = 1 ∧ a.fieldStop = false) := by
        by_contra hno
        push Not at hno
        exact hst ⟨hno.1, a, ha, hno.2.1, hno.2.2⟩
      rcases this with h | h
      · subst h
        unfold wfsCalc at hh ⊢
        split_ifs at * <;> simp_all
      · unfold wfsCalc at hh ⊢
        rw [if_neg h] at hh ⊢
        split_ifs at * <;> simp_all
  | sciPxlScale i p =>
    by_cases hst : Sticky c (.sciPxlScale i p)
    · simp only [hst, not_true_eq_false, iff_false]
      intro hcon
      obtain ⟨h1, s, q, hsi, hsq, hsf⟩ := hst
      subst h1
      obtain ⟨_, _, _, m1, m2⟩ := parts _ _ hcon hr
      obtain ⟨t, hti, hst⟩ := mapE_get _ _ hs i s hsi
      have hps := hp s (List.mem_of_getElem? hsi)
      obtain ⟨u, hu, hsu⟩ := mapE_get _ _ m1 i { t with pxlScale := none } (by simp [Edit.apply, hti])
      obtain ⟨v, hv, hsv⟩ := mapE_get _ _ m2 i { s with pxlScale := none } (by simp [Edit.apply, hsi])
      rw [hu] at hv
      cases hv
      obtain ⟨_, e2, ⟨q', f1, f2, f3⟩ | ⟨f, f0, f1, f2, f3⟩⟩ := sciCalc_ok_cases s t hps hst
      · rw [hsq] at f1
        cases f1
        obtain ⟨_, _, ⟨_, g1, _⟩ | ⟨g, _, g1, _, g3⟩⟩ := sciCalc_ok_cases { s with pxlScale := none } u hps hsv
        · cases g1
        · obtain ⟨_, _, ⟨_, k1, _⟩ | ⟨k, _, k1, _, k3⟩⟩ := sciCalc_ok_cases { t with pxlScale := none } u (by simp only [e2]; exact hps) hsu
          · cases k1
          · simp only at g1 k1
            rw [f3] at k1
            rw [g3] at k3
            exact hsf (by rw [g1, k3, ← k1])
      · rw [hsq] at f0; cases f0
    · simp only [hst, not_false_eq_true, iff_true]
      refine calcParams_congr _ _ rfl rfl rfl rfl rfl rfl rfl rfl (hsci i _ fun a b ha hab => ?_) hwl hL hdm
      have hpa := hp a (List.mem_of_getElem? ha)
      obtain ⟨e1, e2, h⟩ := sciCalc_ok_cases a b hpa hab
      cases p with
      | some p =>
        rw [show ({ b with pxlScale := some p } : Sci) = ⟨a.pos, some p, b.fov, a.pxls⟩ by rw [e1, e2], show ({ a with pxlScale := some p } : Sci) = ⟨a.pos, some p, a.fov, a.pxls⟩ by rfl,
          sciCalc_some _ _ _ _ hpa, sciCalc_some _ _ _ _ hpa]
      | none =>
        have hf : b.fov = a.fov := by
          rcases h with ⟨q, f1, f2, f3⟩ | ⟨f, f0, f1, f2, f3⟩
          · by_contra hne
            exact hst ⟨rfl, a, q, ha, f1, fun h => hne (by rw [f3, h])⟩
          · rw [f3, f1]
        rw [show ({ b with pxlScale := none } : Sci) = { a with pxlScale := none } by rw [e1, e2, hf]]
  | sciFov i f =>
    by_cases hst : Sticky c (.sciFov i f)
    · simp only [hst, not_true_eq_false, iff_false]
      intro hcon
      obtain ⟨s, hsi, hsq, hsf⟩ := hst
      obtain ⟨_, _, _, m1, m2⟩ := parts _ _ hcon hr
      obtain ⟨t, hti, hst⟩ := mapE_get _ _ hs i s hsi
      have hps := hp s (List.mem_of_getElem? hsi)
      have hq : (s.pxls : ℚ) ≠ 0 := by exact_mod_cast hps
      obtain ⟨u, hu, hsu⟩ := mapE_get _ _ m1 i { t with fov := some f } (by simp [Edit.apply, hti])
      obtain ⟨v, hv, hsv⟩ := mapE_get _ _ m2 i { s with fov := some f } (by simp [Edit.apply, hsi])
      rw [hu] at hv
      cases hv
      obtain ⟨e1, e2, ⟨q', f1, f2, f3⟩ | ⟨g, f0, f1, f2, f3⟩⟩ := sciCalc_ok_cases s t hps hst
      · rw [hsq] at f1; cases f1
      · rw [show ({ t with fov := some f } : Sci) = ⟨s.pos, some (g / s.pxls), some f, s.pxls⟩ by rw [e1, e2, f2], sciCalc_some _ _ _ _ hps, div_mul_cancel₀ _ hq] at hsu
        rw [show ({ s with fov := some f } : Sci) = ⟨s.pos, none, some f, s.pxls⟩ by rw [hsq], sciCalc_none _ _ _ hps] at hsv
        rw [← hsv] at hsu
        have := congrArg Sci.fov (Except.ok.inj hsu)
        exact hsf (by rw [f1]; exact this)
    · simp only [hst, not_false_eq_true, iff_true]
      refine calcParams_congr _ _ rfl rfl rfl rfl rfl rfl rfl rfl (hsci i _ fun a b ha hab => ?_) hwl hL hdm
      have hpa := hp a (List.mem_of_getElem? ha)
      have hq : (a.pxls : ℚ) ≠ 0 := by exact_mod_cast hpa
      obtain ⟨e1, e2, ⟨q, f1, f2, f3⟩ | ⟨g, f0, f1, f2, f3⟩⟩ := sciCalc_ok_cases a b hpa hab
      · rw [show ({ b with fov := some f } : Sci) = ⟨a.pos, some q, some f, a.pxls⟩ by rw [e1, e2, f2], show ({ a with fov := some f } : Sci) = ⟨a.pos, some q, some f, a.pxls⟩ by rw [f1]]
      · have hfg : f = g := by by_contra h; exact hst ⟨a, ha, f0, by rw [f1]; exact fun e => h (Option.some.inj e).symm⟩
        subst hfg
        rw [show ({ b with fov := some f } : Sci) = ⟨a.pos, some (f / a.pxls), some f, a.pxls⟩ by rw [e1, e2, f2], show ({ a with fov := some f } : Sci) = ⟨a.pos, none, some f, a.pxls⟩ by rw [f0],
          sciCalc_some _ _ _ _ hpa, sciCalc_none _ _ _ hpa, div_mul_cancel₀ _ hq]
  | sciPxls i n =>
    have hn : ∀ a, c.scis[i]? = some a → n ≠ 0 := fun a ha => he { a with pxls := n } (List.mem_of_getElem? (i := i) (by simp [Edit.apply, ha]))
    by_cases hst : Sticky c (.sciPxls i n)
    · simp only [hst, not_true_eq_false, iff_false]
      intro hcon
      obtain ⟨s, hsi, hsq, hsf, hsn⟩ := hst
      obtain ⟨_, _, _, m1, m2⟩ := parts _ _ hcon hr
      obtain ⟨t, hti, hst⟩ := mapE_get _ _ hs i s hsi
      have hps := hp s (List.mem_of_getElem? hsi)
      have hn0 := hn s hsi
      have hq : (s.pxls : ℚ) ≠ 0 := by exact_mod_cast hps
      obtain ⟨u, hu, hsu⟩ := mapE_get _ _ m1 i { t with pxls := n } (by simp [Edit.apply, hti])
      obtain ⟨v, hv, hsv⟩ := mapE_get _ _ m2 i { s with pxls := n } (by simp [Edit.apply, hsi])
      rw [hu] at hv
      cases hv
      obtain ⟨e1, e2, ⟨q', f1, f2, f3⟩ | ⟨g, f0, f1, f2, f3⟩⟩ := sciCalc_ok_cases s t hps hst
      · rw [hsq] at f1; cases f1
      · rw [show ({ t with pxls := n } : Sci) = ⟨s.pos, some (g / s.pxls), some g, n⟩ by rw [e1, f2, f3], sciCalc_some _ _ _ _ hn0] at hsu
        rw [show ({ s with pxls := n } : Sci) = ⟨s.pos, none, some g, n⟩ by rw [hsq, f1], sciCalc_none _ _ _ hn0] at hsv
        rw [← hsv] at hsu
        have := congrArg Sci.fov (Except.ok.inj hsu)
        simp only [Option.some.injEq] at this
        have hg : g ≠ 0 := fun h => hsf (by rw [f1, h])
        rw [div_mul_eq_mul_div, div_eq_iff hq] at this
        exact hsn (by exact_mod_cast mul_left_cancel₀ hg this)
    · simp only [hst, not_false_eq_true, iff_true]
      refine calcParams_congr _ _ rfl rfl rfl rfl rfl rfl rfl rfl (hsci i _ fun a b ha hab => ?_) hwl hL hdm
      have hpa := hp a (List.mem_of_getElem? ha)
      have hn0 := hn a ha
      have hq : (a.pxls : ℚ) ≠ 0 := by exact_mod_cast hpa
      obtain ⟨e1, e2, ⟨q, f1, f2, f3⟩ | ⟨g, f0, f1, f2, f3⟩⟩ := sciCalc_ok_cases a b hpa hab
      · rw [show ({ b with pxls := n } : Sci) = ⟨a.pos, some q, b.fov, n⟩ by rw [e1, f2], show ({ a with pxls := n } : Sci) = ⟨a.pos, some q, a.fov, n⟩ by rw [f1],
          sciCalc_some _ _ _ _ hn0, sciCalc_some _ _ _ _ hn0]
      · rw [show ({ b with pxls := n } : Sci) = ⟨a.pos, some (g / a.pxls), some g, n⟩ by rw [e1, f2, f3], show ({ a with pxls := n } : Sci) = ⟨a.pos, none, some g, n⟩ by rw [f0, f1],
          sciCalc_some _ _ _ _ hn0, sciCalc_none _ _ _ hn0]
        by_cases hg : g = 0
        · subst hg; simp
        · have : n = a.pxls := by by_contra h; exact hst ⟨a, ha, f0, by rw [f1]; exact fun e => hg (Option.some.inj e), h⟩
          subst this
          rw [div_mul_cancel₀ _ hq]

/-- **C113 (field of view).** Setting the field of view of a science camera whose file gives no pixel scale has no effect at all. -/
theorem C113_fov_ignored (c d r : Config) (i : ℕ) (f : ℚ) (s : Sci) (hc : calcParams c = .ok d) (hp : ∀ s ∈ c.scis, s.pxls ≠ 0) (hs : c.scis[i]? = some s) (hn : s.pxlScale = none)
    (hr : session c [.sciFov i f] = .ok r) : ∃ t, r.scis[i]? = some t ∧ t.fov = s.fov := by
  obtain ⟨scis, ps, hm, _, _, _, _, hd⟩ := calcParams_ok c d hc
  have hses : session c [.sciFov i f] = calcParams ((Edit.sciFov i f).apply d) := by simp only [session, hc, Except.bind, List.foldl]
  rw [hses] at hr
  obtain ⟨s1, p1, a1, _, _, _, _, b1⟩ := calcParams_ok _ r hr
  have hps := hp s (List.mem_of_getElem? hs)
  have hq : (s.pxls : ℚ) ≠ 0 := by exact_mod_cast hps
  obtain ⟨t, ht, hst⟩ := mapE_get _ _ hm i s hs
  obtain ⟨u, hu, hsu⟩ := mapE_get _ _ a1 i { t with fov := some f } (by simp [Edit.apply, hd, ht])
  refine ⟨u, by rw [b1]; exact hu, ?_⟩
  obtain ⟨e1, e2, ⟨q', f1, f2, f3⟩ | ⟨g, f0, f1, f2, f3⟩⟩ := sciCalc_ok_cases s t hps hst
  · rw [hn] at f1; cases f1
  · rw [show ({ t with fov := some f } : Sci) = ⟨s.pos, some (g / s.pxls), some f, s.pxls⟩ by rw [e1, e2, f2], sciCalc_some _ _ _ _ hps, div_mul_cancel₀ _ hq] at hsu
    rw [← Except.ok.inj hsu, f1]

/-- **C113 (remedy).** The field of view takes effect if the pixel scale is taken away first, whatever the file says. -/
theorem C113_remedy (c d : Config) (i : ℕ) (f : ℚ) (hc : calcParams c = .ok d) (hp : ∀ s ∈ c.scis, s.pxls ≠ 0) :
    session c [.sciPxlScale i none, .sciFov i f] = fromFile ((Edit.sciFov i f).apply ((Edit.sciPxlScale i none).apply c)) := by
  have hpe : ∀ s ∈ ((Edit.sciFov i f).apply ((Edit.sciPxlScale i none).apply c)).scis, s.pxls ≠ 0 := by
    intro s hs
    obtain ⟨k, hk⟩ := List.mem_iff_getElem?.mp hs
    simp only [Edit.apply, List.getElem?_modify] at hk
    cases hck : c.scis[k]? with
    | none => simp [hck] at hk
    | some t =>
      have := hp t (List.mem_of_getElem? hck)
      rw [hck] at hk
      by_cases h : i = k
      · simp [h] at hk; rw [← hk]; exact this
      · simp [h] at hk; rw [← hk]; exact this
  rw [fromFile_eq _ hpe]
  have hses : session c [.sciPxlScale i none, .sciFov i f] = calcParams ((Edit.sciFov i f).apply ((Edit.sciPxlScale i none).apply d)) := by simp only [session, hc, Except.bind, List.foldl]
  rw [hses]
  obtain ⟨scis, ps, hs, _, _, _, _, hd⟩ := calcParams_ok c d hc
  subst hd
  refine calcParams_congr _ _ rfl rfl rfl rfl rfl rfl rfl rfl ?_ ?_ rfl ?_
  · simp only [Edit.apply, List.modify_modify_eq]
    refine mapE_modify_congr _ _ i _ hs (fun a ha b hab => (sciCalc_idem a b (hp a ha) hab).1) fun a b ha hab => ?_
    obtain ⟨e1, e2, _⟩ := sciCalc_ok_cases a b (hp a (List.mem_of_getElem? ha)) hab
    simp only [Function.comp, e1, e2]
  · simp only [Edit.apply, List.map_map]
    exact List.map_congr_left fun w _ => wfsCalc_wfsCalc _ _ w (.inl rfl)
  · simp only [Edit.apply, List.map_map]
    exact List.map_congr_left fun w _ => rfl

private theorem mapE_const (n : ℕ) (f : ℕ → Except PyErr ℚ) (h : ∀ i < n, f i = .ok 1) : mapE f (List.range n) = .ok (List.replicate n 1) := by
  refine mapE_of_forall _ _ _ ?_
  rw [List.forall₂_iff_get]
  simp only [List.length_range, List.length_replicate, List.get_eq_getElem, List.getElem_range, List.getElem_replicate, true_and]
  intro i hi _
  exact h i hi

private theorem mapE_error (l : List ℕ) (f : ℕ → Except PyErr ℚ) (e : PyErr) (h : ∀ i ∈ l, (∃ q, f i = .ok q) ∨ f i = .error e) (hk : ∃ k ∈ l, f k = .error e) : mapE f l = .error e := by
  induction l with
  | nil => simp at hk
  | cons a l ih =>
    simp only [mapE]
    rcases h a (by simp) with ⟨q, hq⟩ | hq
    · rw [hq]
      obtain ⟨k, hk, hke⟩ := hk
      rcases List.mem_cons.mp hk with rfl | hk
      · rw [hq] at hke; cases hke
      · rw [ih (fun i hi => h i (by simp [hi])) ⟨k, hk, hke⟩]; rfl
    · rw [hq]; rfl

/-- **C113 (sodium layers).** A file without a sodium profile and with `m` layers, the number of layers then set to `n`: the simulation runs with equal layers as if `n` were in the file when `n` is not greater
than `m`; otherwise every frame of the sensor raises an `IndexError`. -/
theorem C113_sodium (m n : ℕ) : ((sodiumCalc ⟨n, none⟩).bind sodiumUse = .ok (List.replicate n 1)) ∧
    ((sodiumCalc ⟨m, none⟩).bind fun s => sodiumUse { s with layers := n }) = if n ≤ m then .ok (List.replicate n 1) else .error .indexError := by
  constructor
  · simp only [sodiumCalc, Option.getD_none, List.length_replicate, lt_irrefl, if_false, Except.bind, sodiumUse]
    refine mapE_const n _ fun i hi => ?_
    simp [List.getElem?_replicate, hi]
  · simp only [sodiumCalc, Option.getD_none, List.length_replicate, lt_irrefl, if_false, Except.bind, sodiumUse]
    split_ifs with h
    · refine mapE_const n _ fun i hi => ?_
      simp [List.getElem?_replicate, show i < m by omega]
    · refine mapE_error _ _ _ (fun i hi => ?_) ⟨m, by simp; omega, by simp⟩
      by_cases him : i < m
      · left; exact ⟨1, by simp [List.getElem?_replicate, him]⟩
      · right; simp [List.getElem?_replicate, him]

/-- **C113 (no sodium profile).** A profile that is set back to `None` after loading is not replaced by equal layers again: every frame of the sensor raises a `TypeError`. -/
theorem C113_sodium_none (m n : ℕ) (p : Option (List ℚ)) (s : Sodium) (_h : sodiumCalc ⟨m, p⟩ = .ok s) : sodiumUse { s with profile := none, layers := n + 1 } = .error .typeError := by
  unfold sodiumUse
  rw [List.range_succ_eq_map]
  rfl

/-- Two layers, as in the file. -/
example : sodiumUse ⟨1 + 1, none⟩ = .error .typeError := C113_sodium_none 2 1 none ⟨2, some [1, 1]⟩ rfl

/-- The configuration carries the value of the assignment: reading the parameter gives what was set. -/
def Carries : Edit → Config → Prop
  | .pupilSize n, c => c.pupil = n
  | .simOversize q, c => c.oversize = q
  | .loopTime t, c => c.loopTime = t
  | .telDiam q, c => c.telDiam = q
  | .scrnHeights l, c => c.heights = l
  | .scrnNo n, c => c.scrnNo = n
  | .outerScale l, c => c.L0 = some l
  | .gsPosition i p, c => c.wfss[i]?.map Wfs.pos = some p
  | .gsHeight i h, c => c.wfss[i]?.map Wfs.height = some h
  | .gsPhysical i b, c => c.wfss[i]?.map Wfs.physical = some b
  | .gsExposure i t, c => c.wfss[i]?.map Wfs.exposure = some t
  | .gsSubaps i n, c => c.wfss[i]?.map Wfs.nxSubaps = some n
  | .gsFieldStop i b, c => c.wfss[i]?.map Wfs.fieldStop = some b
  | .gsLaser i l, c => c.wfss[i]?.map Wfs.lgs = some (some l)
  | .dmDiameter i d, c => c.dms[i]? = some d
  | .sciPosition i p, c => c.scis[i]?.map Sci.pos = some p
  | .sciPxlScale i p, c => c.scis[i]?.map Sci.pxlScale = some p
  | .sciFov i f, c => c.scis[i]?.map Sci.fov = some (some f)
  | .sciPxls i n, c => c.scis[i]?.map Sci.pxls = some n

/-- The sensor, mirror or camera the assignment speaks of exists. -/
def Exists : Edit → Config → Prop
  | .gsPosition i _, c | .gsHeight i _, c | .gsPhysical i _, c | .gsExposure i _, c | .gsSubaps i _, c | .gsFieldStop i _, c | .gsLaser i _, c => i < c.wfss.length
  | .dmDiameter i _, c => i < c.dms.length
  | .sciPosition i _, c | .sciPxlScale i _, c | .sciFov i _, c | .sciPxls i _, c => i < c.scis.length
  | _, _ => True

private theorem modify_self {α : Type} (l : List α) (i : ℕ) (f : α → α) (h : ∀ a, l[i]? = some a → f a = a) : l.modify i f = l := by
  refine List.ext_getElem? fun k => ?_
  rw [List.getElem?_modify]
  by_cases hk : i = k
  · subst hk
    cases hl : l[i]? with
    | none => rfl
    | some a => simp [h a hl]
  · simp [hk]

/-- **C113 (set).** An assignment stores the value and nothing else: afterwards the parameter reads as set, and setting a parameter to the value it has changes nothing. -/
theorem C113_set (c : Config) (e : Edit) : (Exists e c → Carries e (e.apply c)) ∧ (Carries e c → e.apply c = c) := by
  constructor
  · intro h
    cases e <;> simp only [Exists] at h <;> simp [Carries, Edit.apply, h]
  · intro h
    cases e <;> simp only [Carries, Option.map_eq_some_iff] at h <;> simp only [Edit.apply]
    case gsPosition i p => rw [modify_self]; rintro a ha; obtain ⟨w, hw, rfl⟩ := h; rw [hw] at ha; cases ha; rfl
    case gsHeight i p => rw [modify_self]; rintro a ha; obtain ⟨w, hw, rfl⟩ := h; rw [hw] at ha; cases ha; rfl
    case gsPhysical i p => rw [modify_self]; rintro a ha; obtain ⟨w, hw, rfl⟩ := h; rw [hw] at ha; cases ha; rfl
    case gsExposure i p => rw [modify_self]; rintro a ha; obtain ⟨w, hw, rfl⟩ := h; rw [hw] at ha; cases ha; rfl
    case gsSubaps i p => rw [modify_self]; rintro a ha; obtain ⟨w, hw, rfl⟩ := h; rw [hw] at ha; cases ha; rfl
    case gsFieldStop i p => rw [modify_self]; rintro a ha; obtain ⟨w, hw, rfl⟩ := h; rw [hw] at ha; cases ha; rfl
    case gsLaser i p => rw [modify_self]; rintro a ha; obtain ⟨w, hw, hl⟩ := h; rw [hw] at ha; cases ha; rw [← hl]
    case dmDiameter i p => rw [modify_self]; rintro a ha; rw [h] at ha; cases ha; rfl
    case sciPosition i p => rw [modify_self]; rintro a ha; obtain ⟨w, hw, rfl⟩ := h; rw [hw] at ha; cases ha; rfl
    case sciPxlScale i p => rw [modify_self]; rintro a ha; obtain ⟨w, hw, rfl⟩ := h; rw [hw] at ha; cases ha; rfl
    case sciFov i p => rw [modify_self]; rintro a ha; obtain ⟨w, hw, hl⟩ := h; rw [hw] at ha; cases ha; rw [← hl]
    case sciPxls i p => rw [modify_self]; rintro a ha; obtain ⟨w, hw, rfl⟩ := h; rw [hw] at ha; cases ha; rfl
    all_goals rw [← h]

/-- Values that mean "choose for me" and are replaced at initialisation, and the field of view, which the pixel scale decides. -/
def Replaced : Edit → Prop
  | .gsExposure _ t => t = none ∨ t = some 0
  | .gsFieldStop _ b => b = false
  | .dmDiameter _ d => d = none
  | .sciPxlScale _ p => p = none
  | .sciFov _ _ => True
  | _ => False

private theorem sciCalc_keeps (s t : Sci) (h : sciCalc s = .ok t) : t.pos = s.pos ∧ t.pxls = s.pxls ∧ ∀ p, s.pxlScale = some p → t.pxlScale = some p := by
  unfold sciCalc at h
  split at h
  · cases h
  · rename_i f hq _
    split_ifs at h
    cases h
    exact ⟨rfl, rfl, fun p hp => by rw [hq] at hp; cases hp⟩
  · rename_i p fov hq
    split_ifs at h with h1 h2
    · cases h
      refine ⟨rfl, rfl, fun p' hp' => ?_⟩
      rw [hq] at hp'
      cases hp'
      have : (s.pxls : ℚ) ≠ 0 := by exact_mod_cast h2
      simp only [mul_div_cancel_right₀ _ this]
    · cases h
      exact ⟨rfl, rfl, fun p' hp' => hp'⟩

/-- **C113 (in use).** Whatever was set, unless it asks for a default or is a field of view, is the value the initialised simulation has. -/
theorem C113_in_use (c r : Config) (e : Edit) (hx : Exists e c) (hr : session c [e] = .ok r) (hn : ¬ Replaced e) : Carries e r := by
  cases hc : calcParams c with
  | error x => simp [session, hc, Except.bind] at hr
  | ok d =>
    have hses : calcParams (e.apply d) = .ok r := by simpa [session, hc, Except.bind] using hr
    obtain ⟨scis, ps, hs, _, _, _, _, hd⟩ := calcParams_ok c d hc
    have hlen : scis.length = c.scis.length := (mapE_ok _ _ _ hs).length_eq.symm
    have hxd : Exists e d := by subst hd; cases e <;> simp_all [Exists]
    have hput := (C113_set d e).1 hxd
    obtain ⟨scis', ps', hs', _, _, _, _, hd'⟩ := calcParams_ok _ r hses
    generalize e.apply d = x at *
    subst hd'
    cases e <;> simp only [Carries, Option.map_eq_some_iff] at hput ⊢ <;> simp only [Replaced] at hn
    case sciFov i f => exact absurd trivial hn
    case sciPosition i p =>
      obtain ⟨s, h1, h2⟩ := hput
      obtain ⟨t, h3, h4⟩ := mapE_get _ _ hs' i s h1
      exact ⟨t, h3, by rw [(sciCalc_keeps s t h4).1, h2]⟩
    case sciPxls i p =>
      obtain ⟨s, h1, h2⟩ := hput
      obtain ⟨t, h3, h4⟩ := mapE_get _ _ hs' i s h1
      exact ⟨t, h3, by rw [(sciCalc_keeps s t h4).2.1, h2]⟩
    case sciPxlScale i p =>
      obtain ⟨s, h1, h2⟩ := hput
      obtain ⟨t, h3, h4⟩ := mapE_get _ _ hs' i s h1
      cases p with
      | none => exact absurd rfl hn
      | some p => exact ⟨t, h3, (sciCalc_keeps s t h4).2.2 p h2⟩
    case dmDiameter i q =>
      cases q with
      | none => exact absurd rfl hn
      | some q => simp [hput]
    case outerScale l => simp [hput]
    case gsExposure i t => obtain ⟨w, h1, h2⟩ := hput; exact ⟨_, by rw [List.getElem?_map, h1]; rfl, by simp only [wfsCalc, h2, if_neg hn]⟩
    case gsFieldStop i b => obtain ⟨w, h1, h2⟩ := hput; exact ⟨_, by rw [List.getElem?_map, h1]; rfl, by cases b <;> simp_all [wfsCalc]⟩
    all_goals first
      | exact hput
      | (obtain ⟨w, h1, h2⟩ := hput; exact ⟨_, by rw [List.getElem?_map, h1]; rfl, by simp only [wfsCalc, h2]⟩)

/-- A configuration of one sensor, one mirror and one camera, for the examples. -/
def editConfig : Config := toyConfig none 1 [⟨(0, 0), none, some 7, 10⟩]

/-- **C113 (violated).** The field of view set before initialising is not the one used; likewise loop time, telescope diameter and camera pixels. -/
theorem C113_violated : ¬ ∀ (c d r : Config) (e : Edit), calcParams c = .ok d → fromFile (e.apply c) = .ok r → session c [e] = .ok r := by
  intro h
  cases hd : calcParams editConfig with
  | error e =>
    have k : (calcParams editConfig).toBool = true := by decide +kernel
    rw [hd] at k
    cases k
  | ok d =>
    cases hr : fromFile ((Edit.sciFov 0 8).apply editConfig) with
    | error e =>
      have k : (fromFile ((Edit.sciFov 0 8).apply editConfig)).toBool = true := by decide +kernel
      rw [hr] at k
      cases k
    | ok r =>
      have := h editConfig d r (.sciFov 0 8) hd hr
      rw [← hr] at this
      exact absurd this (by decide +kernel)

/-- The configuration meets the hypotheses; the field of view stays 7, the exposure keeps the old loop time, the mirror the old telescope's diameter; a new guide star position is used. -/
example : (∃ d, calcParams editConfig = .ok d) ∧ (∀ s ∈ editConfig.scis, s.pxls ≠ 0) ∧
    (session editConfig [.sciFov 0 8]).map (fun r => r.scis.map fun s => (s.pxlScale, s.fov)) = .ok [(some (7 / 10), some 7)] ∧
    (fromFile ((Edit.sciFov 0 8).apply editConfig)).map (fun r => r.scis.map fun s => (s.pxlScale, s.fov)) = .ok [(some (8 / 10), some 8)] ∧
    (session editConfig [.sciPxls 0 20]).map (fun r => r.scis.map fun s => (s.pxlScale, s.fov)) = .ok [(some (7 / 10), some 14)] ∧
    (session editConfig [.loopTime (1 / 100)]).map (fun r => r.wfss.map fun w => w.exposure) = .ok [some (1 / 400)] ∧
    session editConfig [.gsPosition 0 (3, 4)] = fromFile ((Edit.gsPosition 0 (3, 4)).apply editConfig) := by
  refine ⟨?_, by decide +kernel, by decide +kernel, by decide +kernel, by decide +kernel, by decide +kernel, by decide +kernel⟩
  cases h : calcParams editConfig with
  | ok d => exact ⟨d, rfl⟩
  | error e =>
    have k : (calcParams editConfig).toBool = true := by decide +kernel
    rw [h] at k
    cases k

/-- The same configuration meets the hypotheses of `C113_set` and `C113_in_use`; an exposure of half a second is used. -/
example : Exists (.gsExposure 0 (some (1 / 2))) editConfig ∧ ¬ Replaced (.gsExposure 0 (some (1 / 2))) ∧ (session editConfig [.gsExposure 0 (some (1 / 2))]).toBool = true ∧
    (session editConfig [.gsExposure 0 (some (1 / 2))]).map (fun r => r.wfss.map fun w => w.exposure) = .ok [some (1 / 2)] ∧
    (session editConfig [.pupilSize 256]).map (fun r => r.pupil) = .ok 256 := by
  refine ⟨by simp [Exists, editConfig, toyConfig], by simp [Replaced], by decide +kernel, by decide +kernel, by decide +kernel⟩

end Soapy.Props
