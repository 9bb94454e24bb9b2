/-
C80: a measurement that is not a number does not stay in the loop.
-/
import Verif.Model.Nan
import Verif.Lemmas.Control
import Verif.Lemmas.Delay
import Verif.Props.Delay

namespace Soapy.Props

open Soapy Soapy.DelaySpec Soapy.Nan Soapy.Vec Soapy.Control Soapy.Influence Soapy.Mirror

/-- All floats are numbers. -/
def Finite (v : List Flt) : Prop := ∀ x ∈ v, x ≠ none

/-- No float is a number. -/
def AllNan (v : List Flt) : Prop := ∀ x ∈ v, x = none

theorem addF_none_left (x : Flt) : addF none x = none := by cases x <;> rfl
theorem addF_none_right (x : Flt) : addF x none = none := by cases x <;> rfl
theorem mulF_none_left (x : Flt) : mulF none x = none := by cases x <;> rfl
theorem mulF_none_right (x : Flt) : mulF x none = none := by cases x <;> rfl
theorem addF_finite {x y : Flt} (hx : x ≠ none) (hy : y ≠ none) : addF x y ≠ none := by
  cases x <;> cases y <;> simp_all [addF]
theorem mulF_finite {x y : Flt} (hx : x ≠ none) (hy : y ≠ none) : mulF x y ≠ none := by
  cases x <;> cases y <;> simp_all [mulF]

/-! ### What the sensors hand over -/

/-- **C80 (Shack-Hartmann).** Whatever the centroids are, the measurements are numbers if reference and noise are.
Missing: the other sensors (violated below). -/
theorem C80_shack_hartmann_partial (n p : ℕ) (m : Slopes.Mode) (static noise : Option (List Flt)) (cents : List Flt)
    (hs : ∀ w ∈ static, Finite w) (hn : ∀ w ∈ noise, Finite w) : Finite (shSlopes n p m static noise cents) := by
  have hzip : ∀ (f : Flt → Flt → Flt), (∀ x y, x ≠ none → y ≠ none → f x y ≠ none) → ∀ v w, Finite v → Finite w → Finite (List.zipWith f v w) := by
    intro f hf v
    induction v with
    | nil => intro w _ _ x hx; simp at hx
    | cons a v ih =>
      intro w hv hw x hx
      cases w with
      | nil => simp at hx
      | cons b w =>
        rw [List.zipWith_cons_cons, List.mem_cons] at hx
        rcases hx with rfl | hx
        · exact hf _ _ (hv a (by simp)) (hw b (by simp))
        · exact ih w (fun y hy => hv y (by simp [hy])) (fun y hy => hw y (by simp [hy])) x hx
  have hfold : ∀ (v : List Flt), Finite v → ∀ z : Flt, z ≠ none → v.foldl addF z ≠ none := by
    intro v
    induction v with
    | nil => intro _ z hz; simpa using hz
    | cons a v ih => intro hv z hz; exact ih (fun y hy => hv y (by simp [hy])) _ (addF_finite hz (hv a (by simp)))
  have hdemean : ∀ v, Finite v → Finite (demeanF v) := by
    intro v hv x hx
    obtain ⟨a, ha, rfl⟩ := List.mem_map.mp hx
    exact addF_finite (hv a ha) (mulF_finite (by simp) (mulF_finite (hfold v hv _ (by simp)) (by simp)))
  have h0 : Finite ((nanToNum cents).map fun a => addF a (some (-((p : ℚ) / 2)))) := by
    intro x hx
    obtain ⟨a, ha, rfl⟩ := List.mem_map.mp hx
    obtain ⟨b, _, rfl⟩ := List.mem_map.mp ha
    exact addF_finite (by simp) (by simp)
  have hst : Finite (static.getD []) := by
    cases static with
    | none => intro x hx; simp at hx
    | some w => exact hs w rfl
  unfold shSlopes
  simp only
  generalize (nanToNum cents).map (fun a => addF a (some (-((p : ℚ) / 2)))) = s0 at h0
  have h1 : Finite (if (static.getD []).any (fun z => !fltEq z (some 0)) then subF s0 (static.getD []) else s0) := by
    split
    · exact hzip _ (fun x y hx hy => addF_finite hx (mulF_finite (by simp) hy)) _ _ h0 hst
    · exact h0
  generalize (if (static.getD []).any (fun z => !fltEq z (some 0)) then subF s0 (static.getD []) else s0) = s1 at h1
  have h2 : Finite (if m.removeTT then demeanF (s1.take n) ++ demeanF (s1.drop n) else s1) := by
    split
    · intro x hx
      rcases List.mem_append.mp hx with hx | hx
      · exact hdemean _ (fun y hy => h1 y (List.mem_of_mem_take hy)) x hx
      · exact hdemean _ (fun y hy => h1 y (List.mem_of_mem_drop hy)) x hx
    · exact h1
  generalize (if m.removeTT then demeanF (s1.take n) ++ demeanF (s1.drop n) else s1) = s2 at h2
  cases noise with
  | none => exact h2
  | some w =>
    simp only
    split
    · exact h2
    · exact hzip _ (fun x y hx hy => addF_finite hx hy) _ _ h2 (hn w rfl)

/-- The reference of a Shack-Hartmann sensor is made by the same function and so always finite; a dark sub-aperture. -/
example : shSlopes 1 4 ⟨false, false⟩ none none [none, some 3] = [some (-2), some 1] := by decide +kernel

theorem sumF_some (v : List ℚ) : sumF (v.map some) = some v.sum := by
  have h : ∀ (v : List ℚ) (z : ℚ), (v.map some).foldl addF (some z) = some (z + v.sum) := by
    intro v
    induction v with
    | nil => intro z; simp
    | cons a v ih => intro z; rw [List.map_cons, List.foldl_cons, show addF (some z) (some a) = some (z + a) from rfl, ih, List.sum_cons, add_assoc]
  rw [sumF, h, zero_add]

theorem demeanF_some (v : List ℚ) : demeanF (v.map some) = (Slopes.demean v).map some := by
  rw [demeanF, sumF_some, Slopes.demean, List.map_map, List.map_map]
  refine List.map_congr_left fun a _ => ?_
  simp only [Function.comp_apply, mulF, addF, List.length_map, Option.some.injEq]
  ring

theorem zipWith_some (f : Flt → Flt → Flt) (g : ℚ → ℚ → ℚ) (h : ∀ a b, f (some a) (some b) = some (g a b)) :
    ∀ v w : List ℚ, List.zipWith f (v.map some) (w.map some) = (List.zipWith g v w).map some := by
  intro v
  induction v with
  | nil => intro w; rfl
  | cons a v ih =>
    intro w
    cases w with
    | nil => rfl
    | cons b w => rw [List.map_cons, List.map_cons, List.zipWith_cons_cons, List.zipWith_cons_cons, List.map_cons, h, ih]

/-- **C80 (Shack-Hartmann, values).** With finite reference and noise the measurements are those of exact arithmetic (C41), a NaN centroid counting as 0. -/
theorem C80_shack_hartmann_value (n p : ℕ) (m : Slopes.Mode) (static noise : Option (List ℚ)) (cents : List Flt) :
    shSlopes n p m (static.map (List.map some)) (noise.map (List.map some)) cents = (Slopes.slopes n p m static noise cents).map some := by
  have h0 : (nanToNum cents).map (fun a => addF a (some (-((p : ℚ) / 2)))) = (Slopes.centred p cents).map some := by
    rw [nanToNum, Slopes.centred, List.map_map, List.map_map]
    refine List.map_congr_left fun a _ => ?_
    simp only [Function.comp_apply, addF, Option.some.injEq]; ring
  have hst : ((static.map (List.map some)).getD []) = (static.getD []).map (some : ℚ → Flt) := by cases static <;> rfl
  have hany : ((static.getD []).map (some : ℚ → Flt)).any (fun z => !fltEq z (some 0)) = (static.getD []).any (fun z => z ≠ 0) := by
    rw [List.any_map]
    congr 1
    funext z
    by_cases hz : z = 0 <;> simp [fltEq, hz]
  unfold shSlopes Slopes.slopes
  simp only
  rw [h0, hst, hany]
  have h1 : (if ((static.getD []).any (fun z => z ≠ 0)) then subF ((Slopes.centred p cents).map some) ((static.getD []).map some) else (Slopes.centred p cents).map some)
      = (Slopes.subStatic static (Slopes.centred p cents)).map some := by
    unfold Slopes.subStatic subF
    split
    · exact zipWith_some _ _ (fun a b => by simp only [mulF, addF, Option.some.injEq]; ring) _ _
    · rfl
  rw [h1]
  generalize Slopes.subStatic static (Slopes.centred p cents) = s1
  have h2 : (if m.removeTT then demeanF ((s1.map some).take n) ++ demeanF ((s1.map some).drop n) else s1.map some) = (if m.removeTT then Slopes.removeTT n s1 else s1).map some := by
    split
    · rw [← List.map_take, ← List.map_drop, demeanF_some, demeanF_some, Slopes.removeTT, List.map_append]
    · rfl
  rw [h2]
  generalize (if m.removeTT then Slopes.removeTT n s1 else s1) = s2
  cases noise with
  | none => rfl
  | some w =>
    simp only [Option.map_some]
    split
    · rfl
    · exact zipWith_some _ _ (fun a b => rfl) _ _

/-- Tip-tilt removal with a dark sub-aperture. -/
example : shSlopes 2 4 ⟨true, false⟩ none none [none, some 3, some 1, some 2] = [some (-3 / 2), some (3 / 2), some (-1 / 2), some (1 / 2)] := by decide +kernel

/-- **C80 (frames without read-out).** A frame in which the sensor is not read hands over zeros, whatever is in `self.slopes`. -/
theorem C80_unread (nMeas : ℕ) (slopes : List Flt) : (frameEnd nMeas false slopes).2 = List.replicate nMeas (some 0) ∧ Finite (frameEnd nMeas false slopes).2 :=
  ⟨rfl, fun _ hx => by rw [List.eq_of_mem_replicate hx]; simp⟩

/-- What the check at the end of `WFS.frame` is for: the measurements handed over are numbers. -/
def CheckWorks : Prop := ∀ (nMeas : ℕ) (slopes : List Flt), Finite (frameEnd nMeas true slopes).2

/-- **C80 is violated by the base class.** The check changes nothing: what goes in comes out, and stays in `self.slopes`. -/
theorem C80_check_violated : ¬ CheckWorks ∧ ∀ nMeas slopes, frameEnd nMeas true slopes = (slopes, slopes) := by
  refine ⟨fun h => h 1 [none] none (by simp [frameEnd]) rfl, fun _ _ => rfl⟩

/-- **C80 is violated by the pyramid sensor**: a dark detector gives nothing but NaN (mask of any even size, same number of valid pixels in each quadrant, at least one). -/
theorem C80_pyramid_violated (flat : List ℚ) (det mask : Arr2) (hf : flat ≠ []) (h : Sensors.pyrSlopes flat det mask = .ok none) :
    ∃ s, pyramidSlopes flat det mask = .ok s ∧ AllNan s ∧ s ≠ [] ∧ ¬ Finite (frameEnd flat.length true s).2 := by
  refine ⟨List.replicate flat.length none, by simp [pyramidSlopes, h], fun x hx => List.eq_of_mem_replicate hx, ?_, ?_⟩
  · intro e
    have := congrArg List.length e
    simp at this; exact hf this
  · intro hfin
    have hpos : 0 < flat.length := List.length_pos_iff.mpr hf
    exact hfin none (by simp [frameEnd]; omega) rfl

/-- A dark 2 × 2 detector. -/
example : Sensors.pyrSlopes [0, 0] ⟨2, 2, fun _ _ => 0⟩ ⟨2, 2, fun _ _ => 1⟩ = .ok none := by decide +kernel

/-! ### The control law with NaN -/

/-- The mirror that command `i` belongs to. -/
def owner : List DmCtl → ℕ → Option DmCtl
  | [], _ => none
  | d :: ds, i => if i < d.nValid then some d else owner ds (i - d.nValid)

theorem owner_lt (ds : List DmCtl) : ∀ i, i < (ds.map DmCtl.nValid).sum → ∃ d, owner ds i = some d := by
  induction ds with
  | nil => intro i hi; simp at hi
  | cons d ds ih =>
    intro i hi
    by_cases h : i < d.nValid
    · exact ⟨d, by simp [owner, h]⟩
    · obtain ⟨e, he⟩ := ih (i - d.nValid) (by simp at hi; omega)
      exact ⟨e, by simp [owner, h, he]⟩

theorem applyGainF_get (ds : List DmCtl) : ∀ (n1 : ℕ) (act new : List Flt), act.length = n1 + (ds.map DmCtl.nValid).sum → new.length = act.length →
    ∃ act', applyGainF ds n1 act new = .ok act' ∧ act'.length = act.length ∧ (∀ i, i < n1 → act'[i]? = act[i]?) ∧
      ∀ i d, n1 ≤ i → owner ds (i - n1) = some d → ∀ x y, act[i]? = some x → new[i]? = some y → act'[i]? = some (updateF d x y) := by
  induction ds with
  | nil => intro n1 act new _ _; exact ⟨act, rfl, rfl, fun _ _ => rfl, fun i d _ h => by simp [owner] at h⟩
  | cons d ds ih =>
    intro n1 act new hl hn
    have hl' : n1 + d.nValid ≤ act.length := by rw [hl]; simp
    have hsl : ∀ v : List Flt, v.length = act.length → (slice v n1 (n1 + d.nValid)).length = d.nValid := by
      intro v hv; simp [slice]; omega
    have ha := hsl act rfl
    have hu := hsl new hn
    have hz : (List.zipWith (updateF d) (slice act n1 (n1 + d.nValid)) (slice new n1 (n1 + d.nValid))).length = d.nValid := by
      rw [List.length_zipWith, ha, hu]; simp
    have hget : ∀ v : List Flt, ∀ i, n1 ≤ i → i < n1 + d.nValid → (slice v n1 (n1 + d.nValid))[i - n1]? = v[i]? := by
      intro v i h1 h2
      simp only [slice]
      rw [List.getElem?_drop, List.getElem?_take, if_pos (by omega)]
      congr 1; omega
    set w := List.zipWith (updateF d) (slice act n1 (n1 + d.nValid)) (slice new n1 (n1 + d.nValid)) with hw
    have has : assign act n1 (n1 + d.nValid) w = .ok (act.take n1 ++ w ++ act.drop (n1 + w.length)) := by
      rw [assign, if_pos (by rw [ha, hz])]
    obtain ⟨act', e1, e2, e3, e4⟩ := ih (n1 + d.nValid) (act.take n1 ++ w ++ act.drop (n1 + w.length)) new
      (by simp [hz]; simp at hl; omega) (by simp [hz, hn]; omega)
    have hmid : ∀ i, i < n1 → (act.take n1 ++ w ++ act.drop (n1 + w.length))[i]? = act[i]? := by
      intro i hi
      rw [List.append_assoc, List.getElem?_append_left (by simp; omega), List.getElem?_take, if_pos hi]
    have hblk : ∀ i, n1 ≤ i → i < n1 + d.nValid → (act.take n1 ++ w ++ act.drop (n1 + w.length))[i]? = w[i - n1]? := by
      intro i h1 h2
      rw [List.append_assoc, List.getElem?_append_right (by simp; omega), List.getElem?_append_left (by simp [hz]; omega)]
      congr 1; simp; omega
    have hrest : ∀ i, n1 + d.nValid ≤ i → (act.take n1 ++ w ++ act.drop (n1 + w.length))[i]? = act[i]? := by
      intro i hi
      rw [List.getElem?_append_right (by simp [hz]; omega), List.getElem?_drop]
      congr 1; simp [hz]; omega
    refine ⟨act', ?_, ?_, ?_, ?_⟩
    · rw [applyGainF]
      rw [if_pos (by rw [ha, hu]), ← hw, has]
      exact e1
    · rw [e2]; simp [hz]; omega
    · intro i hi
      rw [e3 i (by omega), hmid i hi]
    · intro i e h1 he x y hx hy
      by_cases h2 : i - n1 < d.nValid
      · rw [owner, if_pos h2] at he
        obtain rfl := Option.some.inj he
        rw [e3 i (by omega), hblk i h1 (by omega), hw, List.getElem?_zipWith, hget act i h1 (by omega), hget new i h1 (by omega), hx, hy]
      · rw [owner, if_neg h2] at he
        exact e4 i e (by omega) (by rw [show i - (n1 + d.nValid) = i - n1 - d.nValid by omega]; exact he) x y
          (by rw [hrest i (by omega)]; exact hx) hy

theorem zipAdd_length (n : ℕ) (rows : List (List Flt)) : ∀ (v : List Flt), v.length = n → (∀ r ∈ rows, r.length = n) →
    (rows.foldl (List.zipWith addF) v).length = n := by
  induction rows with
  | nil => intro v hv _; exact hv
  | cons r rows ih =>
    intro v hv hr
    exact ih _ (by rw [List.length_zipWith, hv, hr r (by simp)]; simp) (fun q hq => hr q (by simp [hq]))

theorem zipAdd_nan (rows : List (List Flt)) : ∀ (v : List Flt), (AllNan v ∨ ∃ r ∈ rows, AllNan r) → AllNan (rows.foldl (List.zipWith addF) v) := by
  have hz : ∀ v w : List Flt, AllNan v ∨ AllNan w → AllNan (List.zipWith addF v w) := by
    intro v
    induction v with
    | nil => intro w _ x hx; simp at hx
    | cons a v ih =>
      intro w hw x hx
      cases w with
      | nil => simp at hx
      | cons b w =>
        rw [List.zipWith_cons_cons, List.mem_cons] at hx
        rcases hx with rfl | hx
        · rcases hw with hw | hw
          · rw [hw a (by simp), addF_none_left]
          · rw [hw b (by simp), addF_none_right]
        · exact ih w (hw.imp (fun h y hy => h y (by simp [hy])) (fun h y hy => h y (by simp [hy]))) x hx
  induction rows with
  | nil =>
    intro v h
    rcases h with h | ⟨r, hr, _⟩
    · exact h
    · simp at hr
  | cons r rows ih =>
    intro v h
    refine ih _ ?_
    rcases h with h | ⟨q, hq, hn⟩
    · exact Or.inl (hz v r (Or.inl h))
    · rcases List.mem_cons.mp hq with rfl | hq
      · exact Or.inl (hz v _ (Or.inr hn))
      · exact Or.inr ⟨q, hq, hn⟩

/-- Rows of the weighted control matrix. -/
theorem weighted_nan (cmat : List (List ℚ)) (s : List Flt) (h : cmat.length = s.length) (hs : none ∈ s) :
    ∃ r ∈ List.zipWith (fun row x => row.map fun c => mulF x (some c)) cmat s, AllNan r := by
  obtain ⟨i, hi, e⟩ := List.mem_iff_getElem.mp hs
  refine ⟨(cmat[i]'(by omega)).map fun c => mulF none (some c), ?_, ?_⟩
  · rw [List.mem_iff_getElem]
    exact ⟨i, by rw [List.length_zipWith]; omega, by rw [List.getElem_zipWith, e]⟩
  · intro x hx
    obtain ⟨c, _, rfl⟩ := List.mem_map.mp hx
    rfl

theorem tdotF_ok (nActs : ℕ) (cmat : List (List ℚ)) (s : List Flt) (h : cmat.length = s.length) (hc : ∀ r ∈ cmat, r.length = nActs) :
    ∃ u, tdotF nActs cmat s = .ok u ∧ u.length = nActs ∧ (none ∈ s → AllNan u) := by
  refine ⟨_, by rw [tdotF, if_pos h], ?_, fun hs => zipAdd_nan _ _ (Or.inr (weighted_nan cmat s h hs))⟩
  refine zipAdd_length nActs _ _ (by simp) ?_
  intro r hr
  obtain ⟨i, hi, e⟩ := List.mem_iff_getElem.mp hr
  rw [List.getElem_zipWith] at e
  rw [← e, List.length_map]
  exact hc _ (List.getElem_mem _)

/-- One frame: the new commands, and when they are all NaN. -/
theorem reconstructF_ok (dms : List DmCtl) (nActs : ℕ) (hA : nActs = (dms.map DmCtl.nValid).sum) (cmat : List (List ℚ)) (hc : ∀ r ∈ cmat, r.length = nActs)
    (act : Option (List Flt)) (ha : ∀ a ∈ act, a.length = nActs) (m : List Flt) (hm : cmat.length = m.length) :
    ∃ c, reconstructF dms nActs nActs cmat act m = .ok c ∧ c.length = nActs ∧ (none ∈ m → AllNan c) ∧ (∀ a ∈ act, AllNan a → AllNan c) := by
  obtain ⟨u, e1, e2, e3⟩ := tdotF_ok nActs cmat m hm hc
  have hl : (act.getD (List.replicate nActs (some 0))).length = nActs := by
    cases act with
    | none => simp
    | some a => exact ha a rfl
  obtain ⟨c, f1, f2, _, f4⟩ := applyGainF_get dms 0 (act.getD (List.replicate nActs (some 0))) u (by rw [hl, hA]; simp) (by rw [e2, hl])
  have hall : (∀ d x y, x ∈ act.getD (List.replicate nActs (some 0)) → y ∈ u → updateF d x y = none) → AllNan c := by
    intro h x hx
    obtain ⟨i, hi, e⟩ := List.mem_iff_getElem.mp hx
    obtain ⟨d, hd⟩ := owner_lt dms i (by rw [← hA]; omega)
    have := f4 i d (by omega) (by simpa using hd) _ _ (List.getElem?_eq_getElem (by omega)) (List.getElem?_eq_getElem (by omega))
    rw [List.getElem?_eq_getElem hi, e, Option.some.injEq] at this
    rw [this]
    exact h d _ _ (List.getElem_mem _) (List.getElem_mem _)
  refine ⟨c, by rw [reconstructF, e1]; exact f1, by rw [f2, hl], fun hs => hall ?_, ?_⟩
  · intro d x y _ hy
    rw [e3 hs y hy, updateF]
    split
    · rw [mulF_none_right, addF_none_right]
    · rw [mulF_none_right, addF_none_left]
  · intro a haa hn
    obtain rfl : act = some a := haa
    refine hall ?_
    intro d x y hx _
    rw [hn x hx, updateF]
    split
    · rw [addF_none_left]
    · rw [mulF_none_right, addF_none_right]

/-- **C80 (one NaN is for ever).** If one measurement of frame `k` is NaN, every command of every mirror is NaN in frame `k` and in all later frames, whatever is measured then; for every control matrix, gain (also 0) and mode. -/
theorem C80_poison (dms : List DmCtl) (nActs : ℕ) (hA : nActs = (dms.map DmCtl.nValid).sum) (cmat : List (List ℚ)) (hc : ∀ r ∈ cmat, r.length = nActs)
    (ms : List (List Flt)) (hm : ∀ m ∈ ms, cmat.length = m.length) : ∀ (act : Option (List Flt)), (∀ a ∈ act, a.length = nActs) →
    ∃ cs, runF dms nActs nActs cmat act ms = .ok cs ∧ cs.length = ms.length ∧
      ∀ (k : ℕ) (m : List Flt), ms[k]? = some m → none ∈ m → ∀ (i : ℕ) (c : List Flt), k ≤ i → cs[i]? = some c → c.length = nActs ∧ AllNan c := by
  have key : ∀ (ms : List (List Flt)), (∀ m ∈ ms, cmat.length = m.length) → ∀ (act : Option (List Flt)), (∀ a ∈ act, a.length = nActs) →
      ∃ cs, runF dms nActs nActs cmat act ms = .ok cs ∧ cs.length = ms.length ∧ (∀ c ∈ cs, c.length = nActs) ∧
        (∀ a ∈ act, AllNan a → ∀ c ∈ cs, AllNan c) ∧
        ∀ (k : ℕ) (m : List Flt), ms[k]? = some m → none ∈ m → ∀ (i : ℕ) (c : List Flt), k ≤ i → cs[i]? = some c → AllNan c := by
    intro ms
    induction ms with
    | nil => intro _ act _; exact ⟨[], rfl, rfl, by simp, by simp, by simp⟩
    | cons m ms ih =>
      intro hm act ha
      obtain ⟨c, e1, e2, e3, e4⟩ := reconstructF_ok dms nActs hA cmat hc act ha m (hm m (by simp))
      obtain ⟨cs, f1, f2, f3, f4, f5⟩ := ih (fun q hq => hm q (by simp [hq])) (some c) (by intro a h; cases h; exact e2)
      refine ⟨c :: cs, by rw [runF, e1]; simp only; rw [f1], by simp [f2], ?_, ?_, ?_⟩
      · intro x hx
        rcases List.mem_cons.mp hx with rfl | hx
        · exact e2
        · exact f3 x hx
      · intro a haa hn x hx
        rcases List.mem_cons.mp hx with rfl | hx
        · exact e4 a haa hn
        · exact f4 c rfl (e4 a haa hn) x hx
      · intro k q hk hq i x hki hx
        cases k with
        | zero =>
          simp at hk; subst hk
          cases i with
          | zero => simp at hx; subst hx; exact e3 hq
          | succ i => exact f4 c rfl (e3 hq) x (List.mem_of_getElem? (by simpa using hx))
        | succ k =>
          cases i with
          | zero => omega
          | succ i => exact f5 k q (by simpa using hk) hq i x (by omega) (by simpa using hx)
  intro act ha
  obtain ⟨cs, h1, h2, h3, _, h5⟩ := key ms hm act ha
  exact ⟨cs, h1, h2, fun k m hk hq i c hki hc' => ⟨h3 c (List.mem_of_getElem? hc'), h5 k m hk hq i c hki hc'⟩⟩

/-- Two mirrors, one with gain 0; a NaN in the second of three frames. -/
example : runF [⟨1, true, 0⟩, ⟨1, false, 1 / 2⟩] 2 2 [[1, 0], [0, 1]] none [[some 1, some 2], [some 1, none], [some 1, some 2]] =
    .ok [[some 0, some 1], [none, none], [none, none]] := by decide +kernel

/-! ### Without NaN this is the control law of C10 -/

theorem zipF_some (a b : List ℚ) : List.zipWith addF (a.map some) (b.map some) = (List.zipWith (· + ·) a b).map some := by
  induction a generalizing b with
  | nil => rfl
  | cons x a ih => cases b with
    | nil => rfl
    | cons y b => simp [addF, ih]

theorem tdotF_some (nActs : ℕ) (cmat : List (List ℚ)) (s : List ℚ) :
    tdotF nActs cmat (s.map some) = (tdot nActs cmat s).map (List.map some) := by
  unfold tdotF tdot
  by_cases h : cmat.length = s.length
  · rw [if_pos (by simpa using h), if_pos h]
    simp only [Except.map]
    congr 1
    have hrows : List.zipWith (fun row x => row.map fun c => mulF x (some c)) cmat (s.map some) =
        (List.zipWith (fun row x => row.map (x * ·)) cmat s).map (List.map some) := by
      clear h
      induction cmat generalizing s with
      | nil => rfl
      | cons r cmat ih => cases s with
        | nil => rfl
        | cons x s => rw [List.map_cons, List.zipWith_cons_cons, List.zipWith_cons_cons, List.map_cons, ih]; simp [mulF]
    rw [hrows]
    have : ∀ (rows : List (List ℚ)) (v : List ℚ), (rows.map (List.map some)).foldl (List.zipWith addF) (v.map some) =
        (rows.foldl (List.zipWith (· + ·)) v).map some := by
      intro rows
      induction rows with
      | nil => intro v; rfl
      | cons r rows ih => intro v; simp only [List.map_cons, List.foldl_cons]; rw [zipF_some, ih]
    rw [← this, zeros, List.map_replicate]
  · rw [if_neg (by simpa using h), if_neg h]; rfl

theorem updateF_some (d : DmCtl) (a u : List ℚ) :
    List.zipWith (updateF d) (a.map some) (u.map some) = (newValues d a u).map some := by
  unfold newValues
  induction a generalizing u with
  | nil => split <;> rfl
  | cons x a ih => cases u with
    | nil => split <;> rfl
    | cons y u =>
      rw [List.map_cons, List.map_cons, List.zipWith_cons_cons, ih]
      split <;> rename_i h <;> simp [updateF, h, addF, mulF]

theorem applyGainF_some (ds : List DmCtl) : ∀ (n1 : ℕ) (act new : List ℚ),
    applyGainF ds n1 (act.map some) (new.map some) = (applyGain ds n1 act new).map (List.map some) := by
  induction ds with
  | nil => intro n1 act new; rfl
  | cons d ds ih =>
    intro n1 act new
    have hs : ∀ v : List ℚ, slice (v.map some) n1 (n1 + d.nValid) = (slice v n1 (n1 + d.nValid)).map some := by
      intro v; simp [slice, List.map_take, List.map_drop]
    rw [applyGainF, applyGain]
    simp only [hs, List.length_map]
    by_cases h : (slice act n1 (n1 + d.nValid)).length = (slice new n1 (n1 + d.nValid)).length
    · rw [if_pos h, if_pos h, updateF_some]
      unfold assign
      simp only [hs, List.length_map]
      by_cases h2 : (slice act n1 (n1 + d.nValid)).length = (newValues d (slice act n1 (n1 + d.nValid)) (slice new n1 (n1 + d.nValid))).length
      · rw [if_pos h2, if_pos h2]
        simp only
        rw [← ih]
        congr 1
        simp [List.map_take, List.map_drop]
      · rw [if_neg h2, if_neg h2]; rfl
    · rw [if_neg h, if_neg h]; rfl

/-- **C80 (numbers stay numbers).** Without NaN in the measurements the commands are exactly those of the control law over the rationals (C10, C11); in particular none is NaN. -/
theorem C80_finite (dms : List DmCtl) (totalActs nActs : ℕ) (cmat : List (List ℚ)) (ms : List (List ℚ)) : ∀ r : Recon,
    runF dms totalActs nActs cmat (r.actuatorValues.map (List.map some)) (ms.map (List.map some)) =
      (runReconstruct dms totalActs (tdot nActs cmat) r ms).map fun q => q.2.map (List.map some) := by
  induction ms with
  | nil => intro r; rfl
  | cons m ms ih =>
    intro r
    rw [List.map_cons, runF, runReconstruct, reconstructF, reconstruct, tdotF_some]
    cases tdot nActs cmat m with
    | error e => rfl
    | ok u =>
      simp only [Except.map]
      have hg : (r.actuatorValues.map (List.map some)).getD (List.replicate totalActs (some 0)) =
          ((match r.actuatorValues with | none => zeros totalActs | some a => a).map some : List Flt) := by
        cases r.actuatorValues with
        | none => simp [zeros]
        | some a => rfl
      rw [hg, applyGainF_some]
      cases applyGain dms 0 (match r.actuatorValues with | none => zeros totalActs | some a => a) u with
      | error e => rfl
      | ok act' =>
        simp only [Except.map]
        have := ih ⟨some act'⟩
        simp only [Option.map_some] at this
        rw [this]
        cases runReconstruct dms totalActs (tdot nActs cmat) ⟨some act'⟩ ms with
        | error e => rfl
        | ok q => rfl

/-- **C80 (the way out).** `reset` clears the commands: the next frame with numbers gives numbers again, as from a fresh start. -/
theorem C80_reset (dms : List DmCtl) (nActs : ℕ) (cmat : List (List ℚ)) (a : List Flt) (ha : a.length = nActs) (ms : List (List Flt)) :
    runF dms nActs nActs cmat (resetF (some a)) ms = runF dms nActs nActs cmat none ms := by
  cases ms with
  | nil => rfl
  | cons m ms =>
    have : (resetF (some a)).getD (List.replicate nActs (some 0)) = (none : Option (List Flt)).getD (List.replicate nActs (some 0)) := by
      simp [resetF, ← ha]
    rw [runF, runF, reconstructF, reconstructF, this]

/-! ### Delay buffer and mirrors -/

/-- **C80 (the delay does not protect).** During the first `d` frames the delay buffer hands out "zeros" made by multiplying the current commands with 0: where a command is NaN the mirrors receive NaN at once, `d` frames early. -/
theorem C80_delay_violated (d : ℕ) (cs : List (List Flt)) (i : ℕ) (c : List Flt) (hi : cs[i]? = some c) (h : i < d) (hn : AllNan c) :
    ∃ b outs, Delay.runDelay zeroLikeF [] (cs.map fun v => (v, (d : ℤ))) = .ok (b, outs) ∧ ∃ o, outs[i]? = some o ∧ o.length = c.length ∧ AllNan o := by
  obtain ⟨outs, h1, h2, h3⟩ := C01_constant_delay zeroLikeF d cs
  have hlt : i < cs.length := (List.getElem?_eq_some_iff.mp hi).1
  refine ⟨_, outs, h1, zeroLikeF c, ?_, by simp [zeroLikeF], ?_⟩
  · rw [h3 i hlt, constDelay, hi]
    simp [h]
  · intro x hx
    obtain ⟨y, hy, rfl⟩ := List.mem_map.mp hx
    rw [hn y hy]; rfl

/-- **C80 (the delay with numbers).** As long as the commands are numbers, the mirrors receive zeros, one for each command, during the first `d` frames. -/
theorem C80_delay (d : ℕ) (cs : List (List Flt)) (i : ℕ) (c : List Flt) (hi : cs[i]? = some c) (h : i < d) (hn : Finite c) :
    ∃ b outs, Delay.runDelay zeroLikeF [] (cs.map fun v => (v, (d : ℤ))) = .ok (b, outs) ∧ outs[i]? = some (List.replicate c.length (some 0)) := by
  obtain ⟨outs, h1, h2, h3⟩ := C01_constant_delay zeroLikeF d cs
  have hlt : i < cs.length := (List.getElem?_eq_some_iff.mp hi).1
  refine ⟨_, outs, h1, ?_⟩
  rw [h3 i hlt, constDelay, hi]
  have hz : zeroLikeF c = List.replicate c.length (some 0) := by
    rw [List.eq_replicate_iff]
    refine ⟨by simp [zeroLikeF], fun x hx => ?_⟩
    obtain ⟨y, hy, rfl⟩ := List.mem_map.mp hx
    cases y with
    | none => exact absurd rfl (hn none hy)
    | some q => simp [mulF]
  simp [h, hz]

example : Finite [some 1, some (-2)] := by simp [Finite]

/-- **C80 (one actuator blinds the mirror).** If one command is NaN every pixel of the surface is NaN, even where the influence function is zero. -/
theorem C80_surface (shapes : List Arr2) (cmds : List Flt) (h : shapes.length = cmds.length) (hn : none ∈ cmds) (i j : ℕ) :
    surfaceF shapes cmds i j = none := by
  have hf : ∀ v : List Flt, ∀ z : Flt, z = none ∨ none ∈ v → v.foldl addF z = none := by
    intro v
    induction v with
    | nil => intro z hz; simpa using hz
    | cons a v ih =>
      intro z hz
      refine ih _ ?_
      rcases hz with rfl | hz
      · exact Or.inl (addF_none_left _)
      · rcases List.mem_cons.mp hz with rfl | hz
        · exact Or.inl (addF_none_right _)
        · exact Or.inr hz
  refine hf _ _ (Or.inr ?_)
  obtain ⟨k, hk, e⟩ := List.mem_iff_getElem.mp hn
  rw [List.mem_iff_getElem]
  exact ⟨k, by rw [List.length_zipWith]; omega, by rw [List.getElem_zipWith, e, mulF_none_right]⟩

example : surfaceF [⟨1, 1, fun _ _ => 0⟩, ⟨1, 1, fun _ _ => 2⟩] [none, some 1] 0 0 = none := by decide +kernel

/-- Without NaN the surface is that of `makeDMFrame` (C13). -/
theorem C80_surface_finite (n : ℕ) (shapes : List Arr2) (cmds : List ℚ) (a : Arr2) (h : shapes.length = cmds.length)
    (hm : makeDMFrame n shapes cmds = .ok a) (i j : ℕ) : surfaceF shapes (cmds.map some) i j = some (a.px i j) := by
  have hf : ∀ v : List ℚ, ∀ z : ℚ, (v.map some).foldl addF (some z) = some (z + v.sum) := by
    intro v
    induction v with
    | nil => intro z; simp
    | cons b v ih => intro z; simp only [List.map_cons, List.foldl_cons, addF, ih, List.sum_cons]; congr 1; ring
  unfold makeDMFrame at hm
  simp only [stretch_self shapes cmds.length h, stretch_self cmds shapes.length h.symm] at hm
  rw [if_neg (by simp [h])] at hm
  split at hm
  · cases hm
  · rename_i hne
    rw [Except.ok.injEq] at hm
    rw [← hm]
    unfold surfaceF sumF
    rw [show List.zipWith (fun (s : Arr2) c => mulF (some (s.px i j)) c) shapes (cmds.map some) =
      (List.zipWith (fun (s : Arr2) c => s.px i j * c) shapes cmds).map some by
        clear h hm hne
        induction shapes generalizing cmds with
        | nil => rfl
        | cons s shapes ih => cases cmds with
          | nil => rfl
          | cons c cmds => rw [List.map_cons, List.zipWith_cons_cons, List.zipWith_cons_cons, List.map_cons, ih]; rfl, hf]
    simp

end Soapy.Props
