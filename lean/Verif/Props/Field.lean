/-
Property theorems C142: the turbulence above the telescope and the field of view.
-/
import Verif.Props.Margin
import Verif.Props.Atmos
import Verif.Props.Interrupt

namespace Soapy.Props

open Soapy.Mirror Soapy.Interp Soapy.Atmos Soapy.Conf

/-- **C142 (finite screens).** Two simulations with the same stored screen and wind (whole pixels per frame), one with a window larger by
`m` pixels on each side, as a target further out makes it.  Pixel `(i, j)` of the smaller window and pixel `(i + m, j + m)` of the larger
one are at the same place above the telescope; in every frame the second shows what lies `m` pixels further along each axis on the stored
screen (for wind towards smaller coordinates, `m` pixels back): all of the turbulence is displaced. -/
theorem C142_displaced (W s m : ℕ) (scr : Arr2) (a b : ℤ) (l l' : Layer) (h : initLayer W s scr (a, b) = .ok l)
    (h' : initLayer W (s + 2 * m) scr (a, b) = .ok l')
    (spline : Arr2 → ℚ → ℚ → ℚ) (hspl : ∀ (q : Arr2) (i j : ℕ), i < q.rows → j < q.cols → spline q i j = q.px i j) (scale : ℚ) :
    ∃ x0 y0 : ℤ, ∀ n i j, i < s → j < s → ∃ row row',
      (outLayer spline scale W s (a, b) l n)[i]? = some row ∧ (outLayer spline scale W (s + 2 * m) (a, b) l' n)[i + m]? = some row' ∧
      row[j]? = some (scr.px ((x0 + i + n * a) % W).toNat ((y0 + j + n * b) % W).toNat * scale) ∧
      row'[j + m]? = some (scr.px ((x0 + i + n * a + if a < 0 then -(m : ℤ) else m) % W).toNat
        ((y0 + j + n * b + if b < 0 then -(m : ℤ) else m) % W).toNat * scale) := by
  refine ⟨if a < 0 then (W : ℤ) - s else 0, if b < 0 then (W : ℤ) - s else 0, fun n i j hi hj => ?_⟩
  obtain ⟨row, r1, r2⟩ := C25_frozen_flow_partial W s scr a b l h spline hspl scale n i j hi hj
  obtain ⟨row', r3, r4⟩ := C25_frozen_flow_partial W (s + 2 * m) scr a b l' h' spline hspl scale n (i + m) (j + m) (by omega) (by omega)
  refine ⟨row, row', r1, r3, r2, ?_⟩
  have e : ∀ (c : ℤ) (k : ℕ), (if c < 0 then (W : ℤ) - (s + 2 * m : ℕ) else 0) + (k + m : ℕ) + n * c =
      (if c < 0 then (W : ℤ) - s else 0) + k + n * c + if c < 0 then -(m : ℤ) else m := by
    intro c k
    split_ifs <;> push_cast <;> ring
  rw [r4, e, e]

/-- **C142 (infinite screens).** The stored part of an infinite screen is larger for a larger window, so making it takes other random numbers. -/
theorem C142_infinite (s m : ℕ) (hm : 0 < m) (dir : ℚ) : (infSizes s dir).1 < (infSizes (s + 2 * m) dir).1 := by
  unfold infSizes
  split
  · simp only; omega
  · simp only
    have key : ∀ n : ℕ, 8 * n ^ 2 ≤ (if Nat.sqrt (8 * n ^ 2) ^ 2 = 8 * n ^ 2 then Nat.sqrt (8 * n ^ 2) else Nat.sqrt (8 * n ^ 2) + 1) ^ 2 ∧
        ((if Nat.sqrt (8 * n ^ 2) ^ 2 = 8 * n ^ 2 then Nat.sqrt (8 * n ^ 2) else Nat.sqrt (8 * n ^ 2) + 1) ≤ 3 * n) := by
      intro n
      have h1 : Nat.sqrt (8 * n ^ 2) ≤ 3 * n := by
        rw [← Nat.sqrt_eq' (3 * n)]
        exact Nat.sqrt_le_sqrt (by rw [mul_pow]; exact Nat.mul_le_mul_right _ (by norm_num))
      split_ifs with h
      · exact ⟨h.ge, h1⟩
      · refine ⟨(Nat.lt_succ_sqrt' (8 * n ^ 2)).le, ?_⟩
        rcases Nat.lt_or_ge (Nat.sqrt (8 * n ^ 2)) (3 * n) with h2 | h2
        · exact h2
        · exfalso
          have h3 := Nat.sqrt_le' (8 * n ^ 2)
          have h4 : Nat.sqrt (8 * n ^ 2) = 3 * n := le_antisymm h1 h2
          rw [h4] at h3 h
          have : n = 0 := by nlinarith
          subst this
          exact h (by norm_num)
    have k1 := key (s + 2 * m)
    set A := (if Nat.sqrt (8 * (s + 2 * m) ^ 2) ^ 2 = 8 * (s + 2 * m) ^ 2 then Nat.sqrt (8 * (s + 2 * m) ^ 2) else Nat.sqrt (8 * (s + 2 * m) ^ 2) + 1) with hA
    by_contra hc
    push Not at hc
    have hb : (if Nat.sqrt (8 * s ^ 2) ^ 2 = 8 * s ^ 2 then Nat.sqrt (8 * s ^ 2) else Nat.sqrt (8 * s ^ 2) + 1) ≤ Nat.sqrt (8 * s ^ 2) + 1 := by
      split_ifs <;> omega
    have hr := Nat.sqrt_le' (8 * s ^ 2)
    have h5 := (key s).2
    set r := Nat.sqrt (8 * s ^ 2) with hrr
    have h6 : A ≤ r + 1 := hc.trans hb
    have h7 : A ≤ 3 * s := hc.trans h5
    have h8 : r ≤ 3 * s := by
      rw [hrr, ← Nat.sqrt_eq' (3 * s)]
      exact Nat.sqrt_le_sqrt (by rw [mul_pow]; exact Nat.mul_le_mul_right _ (by norm_num))
    have h9 : A ^ 2 ≤ (r + 1) ^ 2 := Nat.pow_le_pow_left h6 2
    nlinarith [k1.1]

/-- What one more target does to the positions. -/
theorem target_positions (c : Config) (x : Sci) (scis scis' : List Sci) (ps ps' : List ℚ) (hn : c.nSci = c.scis.length)
    (a1 : mapE sciCalc c.scis = .ok scis) (b1 : mapE sciCalc (c.scis ++ [x]) = .ok scis') (a4 : positions c scis = .ok ps)
    (b4 : positions { c with scis := c.scis ++ [x], nSci := c.nSci + 1 } scis' = .ok ps') : ps' = ps ++ [x.pos.1, x.pos.2] := by
  have hsc : ∃ y, scis' = scis ++ [y] ∧ y.pos = x.pos := by
    have split : ∀ (l : List Sci) (r : List Sci), mapE sciCalc (l ++ [x]) = .ok r → ∃ u y, mapE sciCalc l = .ok u ∧ r = u ++ [y] ∧ sciCalc x = .ok y := by
      intro l
      induction l with
      | nil =>
        intro r h
        have := mapE_ok _ _ _ h
        cases this with
        | cons e1 e2 => cases e2; exact ⟨[], _, rfl, rfl, e1⟩
      | cons a l ih =>
        intro r h
        have := mapE_ok _ _ _ h
        cases this with
        | cons e1 e2 =>
          obtain ⟨u, y, h1, rfl, h3⟩ := ih _ (mapE_of_forall _ _ _ e2)
          exact ⟨_ :: u, y, mapE_of_forall _ _ _ (.cons e1 (mapE_ok _ _ _ h1)), rfl, h3⟩
    obtain ⟨u, y, h1, h2, h3⟩ := split _ _ b1
    rw [a1, Except.ok.injEq] at h1
    refine ⟨y, by rw [h1]; exact h2, ?_⟩
    unfold sciCalc at h3
    split at h3
    · cases h3
    · split_ifs at h3
      cases h3; rfl
    · split_ifs at h3 <;> cases h3 <;> rfl
  obtain ⟨y, rfl, hy⟩ := hsc
  have hlen : scis.length = c.nSci := by rw [hn, (mapE_ok _ _ _ a1).length_eq]
  unfold positions at a4 b4
  simp only at a4 b4
  cases hm : mapE (gsCoords c.telDiam) (c.wfss.take c.nGS) with
  | error e => rw [hm] at a4; cases a4
  | ok gs =>
    rw [hm] at a4 b4
    simp only [Except.bind, Except.ok.injEq] at a4 b4
    rw [← a4, ← b4, List.take_of_length_le (le_of_eq hlen), List.take_of_length_le (by rw [List.length_append, hlen]; rfl), ← hy]
    simp

theorem foldl_max_eq (l : List ℚ) (a : ℚ) (h : ∀ x ∈ l, x ≤ a) : l.foldl max a = a := by
  induction l with
  | nil => rfl
  | cons x l ih =>
    rw [List.foldl_cons, max_eq_left (h x List.mem_cons_self)]
    exact ih fun y hy => h y (List.mem_cons_of_mem _ hy)

/-- **C142 (what holds; missing: targets further out than everything else, where it fails).** A science target added within the field — no
coordinate greater than one that some guide star (not elongated) already has — leaves all derived parameters as they are, so the atmosphere
is made and moved as before. -/
theorem C142_within_partial (c d d' : Config) (x : Sci) (hc : calcParams c = .ok d)
    (hc' : calcParams { c with scis := c.scis ++ [x], nSci := c.nSci + 1 } = .ok d') (hn : c.nSci = c.scis.length)
    (hx : ∀ q, q = x.pos.1 ∨ q = x.pos.2 → ∃ w ∈ c.wfss.take c.nGS, w.lgs = none ∧ (q ≤ |w.pos.1| ∨ q ≤ |w.pos.2|)) :
    d'.derived = d.derived ∧ d'.wfss = d.wfss ∧ d'.dms = d.dms ∧ d'.heights = d.heights ∧ d'.L0 = d.L0 := by
  obtain ⟨scis, ps, a1, a2, a3, a4, a5, a6⟩ := calcParams_ok c d hc
  obtain ⟨scis', ps', b1, b2, b3, b4, b5, b6⟩ := calcParams_ok _ d' hc'
  obtain rfl := target_positions c x scis scis' ps ps' hn a1 b1 a4 b4
  have hin : ∀ q, q = x.pos.1 ∨ q = x.pos.2 → ∃ r ∈ ps, q ≤ r := by
    intro q hq
    obtain ⟨w, hw, hl, hle⟩ := hx q hq
    unfold positions at a4
    cases hm : mapE (gsCoords c.telDiam) (c.wfss.take c.nGS) with
    | error e => rw [hm] at a4; cases a4
    | ok gs =>
      rw [hm] at a4
      simp only [Except.bind, Except.ok.injEq] at a4
      have hmem : [|w.pos.1|, |w.pos.2|] ∈ gs := by
        have : ∀ (l : List Wfs) (g : List (List ℚ)), List.Forall₂ (fun a b => gsCoords c.telDiam a = .ok b) l g → w ∈ l →
            [|w.pos.1|, |w.pos.2|] ∈ g := by
          intro l g hf
          induction hf with
          | nil => intro h; cases h
          | cons h1 _ ih =>
            intro hm
            rcases List.mem_cons.mp hm with rfl | hm
            · unfold gsCoords at h1
              rw [hl] at h1
              simp only [Except.ok.injEq] at h1
              rw [← h1]; exact List.mem_cons_self
            · exact List.mem_cons_of_mem _ (ih hm)
        exact this _ _ (mapE_ok _ _ _ hm) hw
      rcases hle with hle | hle
      · exact ⟨_, by rw [← a4]; exact List.mem_append_left _ (List.mem_flatten.mpr ⟨_, hmem, by simp⟩), hle⟩
      · exact ⟨|w.pos.2|, by rw [← a4]; exact List.mem_append_left _ (List.mem_flatten.mpr ⟨_, hmem, by simp⟩), hle⟩
  have hmax : maxOf (ps ++ [x.pos.1, x.pos.2]) = maxOf ps := by
    obtain ⟨r1, m1, l1⟩ := hin _ (.inl rfl)
    obtain ⟨r2, m2, l2⟩ := hin _ (.inr rfl)
    have g1 := l1.trans (maxOf_ge _ _ m1)
    have g2 := l2.trans (maxOf_ge _ _ m2)
    obtain ⟨p, ps, rfl⟩ := List.exists_cons_of_ne_nil (List.ne_nil_of_mem m1)
    change (ps ++ _).foldl max p = _
    rw [List.foldl_append]
    refine foldl_max_eq _ _ ?_
    intro y hy
    simp only [List.mem_cons, List.not_mem_nil, or_false] at hy
    rcases hy with rfl | rfl
    · exact g1
    · exact g2
  rw [a6, b6]
  simp only [hmax, and_self]

/-- **C142 (cameras).** The science cameras themselves never disturb the loop: with any cameras, in any number, the measurements, commands,
corrections and records of a run are the same. -/
theorem C142_cameras {α σ κ κ' Scr Surf : Type} [Add Surf] (sys : Loop.Sys Surf) (p : Interrupt.Parts α σ κ Scr Surf)
    (p' : Interrupt.Parts α σ κ' Scr Surf) (hm : p'.move = p.move) (hs : p'.sense = p.sense) (dms : List Control.DmCtl) (n : ℕ)
    (s : Interrupt.St α σ κ Scr Surf) (s' : Interrupt.St α σ κ' Scr Surf) (h : asLoop s' = asLoop s) :
    (Interrupt.run sys p' dms (List.replicate n none) s').map asLoop = (Interrupt.run sys p dms (List.replicate n none) s).map asLoop := by
  have ho : outside p' = outside p := by unfold outside; rw [hm, hs]
  induction n generalizing s s' with
  | zero => simp only [List.replicate_zero, Interrupt.run, Except.map, h]
  | succ n ih =>
    have w := C141_whole sys p dms s
    have w' := C141_whole sys p' dms s'
    rw [h, ho, ← w] at w'
    simp only [List.replicate_succ, Interrupt.run]
    cases e : Interrupt.frame sys p dms none s with
    | error x =>
      cases e' : Interrupt.frame sys p' dms none s' with
      | error x' =>
        rw [e, e'] at w'
        simp only [Except.map, Except.error.injEq] at w'
        simp only [Except.map, w']
      | ok t' => rw [e, e'] at w'; cases w'
    | ok t =>
      cases e' : Interrupt.frame sys p' dms none s' with
      | error x' => rw [e, e'] at w'; cases w'
      | ok t' =>
        rw [e, e'] at w'
        exact ih t t' (Except.ok.inj w')

/-- A simulation with one guide star on axis and one layer at 10 km. -/
def onAxis : Config := ⟨32, 9 / 8, 1, 0, 1, 1, [10000], 1, none, [⟨(0, 0), 0, none, false, none, 2, false⟩], [], [], none⟩

/-- The size of the screens. -/
def screenOf (c : Config) : Option ℕ :=
  match calcParams c with
  | .ok d => d.derived.map Derived.scrnSize
  | .error _ => none

/-- What the middle of the telescope sees in frame `n`, with a window of `s` pixels on a stored screen of 128 whose pixels hold the number of
their row, wind of one pixel per frame, and any interpolation that goes through the pixels. -/
def middle (s n : ℕ) : Option ℚ :=
  match initLayer 128 s ⟨128, 128, fun i _ => i⟩ (1, 0) with
  | .ok l => ((outLayer (fun a x y => a.px (pyInt x).toNat (pyInt y).toNat) 1 128 s (1, 0) l n)[s / 2]?).bind (·[s / 2]?)
  | .error _ => none

/-- **C142 (violated).** A science target at ten arc seconds added to a simulation on axis: the screens have 68 instead of 36 pixels, and the
middle of the telescope sees other turbulence, in the first frame and in all that follow, though seed, layers and wind are the same. -/
theorem C142_violated :
    screenOf onAxis = some 36 ∧ screenOf { onAxis with nSci := 1, scis := [⟨(10, 0), some 1, none, 8⟩] } = some 68 ∧
    middle 36 0 = some 18 ∧ middle 68 0 = some 34 ∧ middle 36 5 = some 23 ∧ middle 68 5 = some 39 := by
  refine ⟨by decide +kernel, by decide +kernel, by decide +kernel, by decide +kernel, by decide +kernel, by decide +kernel⟩

/-- Within the field: a target on axis. -/
example : ∃ d d', calcParams onAxis = .ok d ∧ calcParams { onAxis with scis := onAxis.scis ++ [⟨(0, -5), some 1, none, 8⟩], nSci := onAxis.nSci + 1 } = .ok d' ∧
    (∀ q : ℚ, q = 0 ∨ q = -5 → ∃ w ∈ onAxis.wfss.take onAxis.nGS, w.lgs = none ∧ (q ≤ |w.pos.1| ∨ q ≤ |w.pos.2|)) := by
  refine ⟨_, _, rfl, rfl, ?_⟩
  rintro q (rfl | rfl)
  · exact ⟨_, List.mem_cons_self, rfl, .inl (abs_nonneg _)⟩
  · exact ⟨_, List.mem_cons_self, rfl, .inl (le_trans (by norm_num) (abs_nonneg _))⟩

/-- Both windows fit on the stored screen, and a spline through the pixels exists. -/
example : (∃ l, initLayer 128 36 ⟨128, 128, fun i _ => i⟩ ((1 : ℤ), (-2 : ℤ)) = .ok l) ∧
    (∃ l, initLayer 128 (36 + 2 * 16) ⟨128, 128, fun i _ => i⟩ ((1 : ℤ), (-2 : ℤ)) = .ok l) ∧
    ∀ (q : Arr2) (i j : ℕ), i < q.rows → j < q.cols → (fun (a : Arr2) (x y : ℚ) => a.px (pyInt x).toNat (pyInt y).toNat) q i j = q.px i j := by
  refine ⟨(C24_init_iff _ _ _ _).mpr ⟨by norm_num, rfl, rfl⟩, (C24_init_iff _ _ _ _).mpr ⟨by norm_num, rfl, rfl⟩, ?_⟩
  intro q i j _ _
  have : ∀ k : ℕ, pyInt (k : ℚ) = k := fun k => by exact_mod_cast pyInt_int (k : ℤ)
  simp [this]

end Soapy.Props
