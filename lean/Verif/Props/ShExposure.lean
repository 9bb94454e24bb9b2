/-
Property theorems C134: an exposure of several frames.
-/
import Verif.Model.ShExposure
import Verif.Props.ShSensor

open Soapy.Mirror Soapy.Subaps Soapy.Spot Soapy.SubapScale Soapy.ShSensor Soapy.Props Finset

namespace Soapy.ShExposure

/-! ### The detector at the end of an exposure -/

/-- Light of the frames `l`, summed. -/
noncomputable def total (s : Sh) (l : List Arr2) (r c : ℕ) : ℝ := (l.map fun a => det s (wave a s.N) r c).sum

/-- Focal plane of a sub-aperture after the frames `l`. -/
noncomputable def acc (s : Sh) (l : List Arr2) (q : ℕ × ℕ) (i j : ℕ) : ℝ :=
  (l.map fun a => spot (s.o * s.p * s.b) s.m (field s (wave a s.N) q) (tiltFix s.p s.m s.A) i j).sum

theorem expose_eq (s : Sh) (a : Arr2) (m : Mem) (q : ℕ × ℕ) (hin : inside s q = true) (i j : ℕ) :
    expose s (tab s.N (wave a s.N)) m q i j = m.focus q i j + spot (s.o * s.p * s.b) s.m (field s (wave a s.N) q) (tiltFix s.p s.m s.A) i j := by
  unfold inside at hin
  rw [decide_eq_true_eq] at hin
  unfold expose subImage
  rw [spot_eq _ _ _ (field s (wave a s.N) q)]
  intro j hj k hk
  unfold subField field
  rw [tab_get _ _ _ _ (by omega) (by omega)]

theorem binFill_acc (s : Sh) (focus : ℕ × ℕ → ℕ → ℕ → ℝ) (l : List Arr2) (q : ℕ × ℕ) (h : focus q = acc s l q) (i j : ℕ) :
    binFill s focus q i j = (l.map fun a => pic s (wave a s.N) q i j).sum := by
  unfold binFill
  rw [h]
  clear h
  induction l with
  | nil => unfold binned acc; simp
  | cons a l ih =>
    have e : ∀ i j, acc s (a :: l) q i j = spot (s.o * s.p * s.b) s.m (field s (wave a s.N) q) (tiltFix s.p s.m s.A) i j + acc s l q i j := by
      intro i j
      unfold acc
      rw [List.map_cons, List.sum_cons]
    have e2 : binned s.b (acc s (a :: l) q) i j = binned s.b (spot (s.o * s.p * s.b) s.m (field s (wave a s.N) q) (tiltFix s.p s.m s.A)) i j + binned s.b (acc s l q) i j := by
      unfold binned
      simp only [e, sum_add_distrib]
    rw [e2, add_mul, List.map_cons, List.sum_cons, ih]
    rfl

theorem good_inside (s : Sh) (hg : good s = true) : (subs s).all (inside s) = true := by
  unfold good at hg
  rw [List.all_eq_true] at hg ⊢
  intro q hq
  have := hg q hq
  rw [Bool.and_eq_true] at this
  exact this.1

theorem place_ok (s : Sh) (hg : good s = true) (d : ℕ → ℕ → ℝ) (f : ℕ × ℕ → ℕ → ℕ → ℝ) :
    place s.nx s.p s.o s.g d ((subs s).map fun q => (q, f q)) = .ok fun r c => d r c + ((subs s).map fun q => part s.nx s.p s.o s.g q (f q) r c).sum := by
  rw [place_eq, if_pos]
  · congr 1
    funext r c
    rw [List.map_map]
    rfl
  · rw [List.all_map, List.all_eq_true]
    unfold good at hg
    rw [List.all_eq_true] at hg
    intro q hq
    have := hg q hq
    rw [Bool.and_eq_true] at this
    exact this.2

theorem part_sum (s : Sh) (l : List Arr2) (q : ℕ × ℕ) (f : ℕ → ℕ → ℝ) (h : ∀ i j, f i j = (l.map fun a => pic s (wave a s.N) q i j).sum) (r c : ℕ) :
    part s.nx s.p s.o s.g q f r c = (l.map fun a => part s.nx s.p s.o s.g q (pic s (wave a s.N) q) r c).sum := by
  unfold part
  split_ifs
  · exact h _ _
  · simp

theorem sum_swap {α β : Type} (l : List α) (k : List β) (f : α → β → ℝ) : (l.map fun a => (k.map fun b => f a b).sum).sum = (k.map fun b => (l.map fun a => f a b).sum).sum := by
  induction l with
  | nil => simp
  | cons a l ih =>
    simp only [List.map_cons, List.sum_cons, ih]
    rw [← List.sum_map_add]

theorem placed_total (s : Sh) (l : List Arr2) (focus : ℕ × ℕ → ℕ → ℕ → ℝ) (h : ∀ q ∈ subs s, focus q = acc s l q) (r c : ℕ) :
    ((subs s).map fun q => part s.nx s.p s.o s.g q (binFill s focus q) r c).sum = total s l r c := by
  unfold total det
  rw [sum_swap]
  exact congrArg List.sum (List.map_congr_left fun q hq => part_sum s l q _ (fun i j => binFill_acc s focus l q (h q hq) i j) r c)

/-- A frame that is not read returns zeros and keeps the light. -/
theorem frame_unread (s : Sh) (tt : Bool) (st : List (ℝ × ℝ)) (hg : good s = true) (m : Mem) (l : List Arr2) (h : ∀ q ∈ subs s, m.focus q = acc s l q) (a : Arr2) (hr : 2 ≤ a.rows) (hc : 2 ≤ a.cols) :
    ∃ m', frame s tt st m a false = .ok (List.replicate (2 * (subs s).length) 0, m') ∧ ∀ q ∈ subs s, m'.focus q = acc s (l ++ [a]) q := by
  unfold frame
  rw [sampled_tab a s.N hr hc]
  dsimp only
  rw [if_pos (good_inside s hg), place_ok s hg]
  dsimp only
  rw [if_neg Bool.false_ne_true]
  refine ⟨_, rfl, fun q hq => ?_⟩
  dsimp only
  have hin := good_inside s hg
  rw [List.all_eq_true] at hin
  funext i j
  rw [expose_eq s a m q (hin q hq), h q hq]
  unfold acc
  rw [List.map_append, List.sum_append, List.map_singleton, List.sum_singleton]

/-- A frame that is read returns the measurements of all the light since the last one that was read. -/
theorem frame_read (s : Sh) (tt : Bool) (st : List (ℝ × ℝ)) (hg : good s = true) (m : Mem) (l : List Arr2) (h : ∀ q ∈ subs s, m.focus q = acc s l q) (a : Arr2) (hr : 2 ≤ a.rows) (hc : 2 ≤ a.cols) :
    ∃ m', frame s tt st m a true = .ok (slopesOf s tt st (total s (l ++ [a])), m') ∧ ∀ q ∈ subs s, m'.focus q = acc s [] q := by
  unfold frame
  rw [sampled_tab a s.N hr hc]
  dsimp only
  rw [if_pos (good_inside s hg), place_ok s hg]
  dsimp only
  have hin := good_inside s hg
  rw [List.all_eq_true] at hin
  have e : (fun r c => (if true = true then fun _ _ => (0 : ℝ) else m.det) r c + ((subs s).map fun q => part s.nx s.p s.o s.g q (binFill s (expose s (tab s.N (wave a s.N)) m) q) r c).sum) = total s (l ++ [a]) := by
    funext r c
    rw [if_pos rfl, zero_add]
    refine placed_total s (l ++ [a]) _ (fun q hq => ?_) r c
    funext i j
    rw [expose_eq s a m q (hin q hq), h q hq]
    unfold acc
    rw [List.map_append, List.sum_append, List.map_singleton, List.sum_singleton]
  rw [e, if_pos rfl]
  refine ⟨_, rfl, fun q _ => ?_⟩
  funext i j
  unfold acc
  simp

theorem frames_unread (s : Sh) (tt : Bool) (st : List (ℝ × ℝ)) (hg : good s = true) (k : List Arr2) :
    ∀ (m : Mem) (l : List Arr2), (∀ q ∈ subs s, m.focus q = acc s l q) → (∀ a ∈ k, 2 ≤ a.rows ∧ 2 ≤ a.cols) →
    ∃ m', (∀ q ∈ subs s, m'.focus q = acc s (l ++ k) q) ∧ ∀ rest vs, frames s tt st m' rest = .ok vs →
      frames s tt st m ((k.map fun a => (a, false)) ++ rest) = .ok (List.replicate k.length (List.replicate (2 * (subs s).length) 0) ++ vs) := by
  induction k with
  | nil =>
    intro m l h _
    exact ⟨m, by simpa using h, fun rest vs hv => by simpa using hv⟩
  | cons a k ih =>
    intro m l h hk
    obtain ⟨m1, e1, h1⟩ := frame_unread s tt st hg m l h a (hk a List.mem_cons_self).1 (hk a List.mem_cons_self).2
    obtain ⟨m2, h2, e2⟩ := ih m1 (l ++ [a]) h1 fun b hb => hk b (List.mem_cons_of_mem _ hb)
    refine ⟨m2, by simpa using h2, fun rest vs hv => ?_⟩
    rw [List.map_cons, List.cons_append, frames, e1]
    dsimp only
    rw [e2 rest vs hv]
    dsimp only
    rw [List.length_cons, List.replicate_succ, List.cons_append]

/-- What a list of exposures returns: zeros from the frames that are not read, then the measurements. -/
theorem frames_exposures (s : Sh) (tt : Bool) (st : List (ℝ × ℝ)) (hg : good s = true) (es : List (List Arr2)) :
    ∀ m : Mem, (∀ q ∈ subs s, m.focus q = acc s [] q) → (∀ e ∈ es, e ≠ [] ∧ ∀ a ∈ e, 2 ≤ a.rows ∧ 2 ≤ a.cols) →
    frames s tt st m (es.flatMap exposure) = .ok (es.flatMap fun e => List.replicate (e.length - 1) (List.replicate (2 * (subs s).length) 0) ++ [slopesOf s tt st (total s e)]) := by
  induction es with
  | nil => intro m _ _; rfl
  | cons e es ih =>
    intro m h hes
    obtain ⟨hne, hsz⟩ := hes e List.mem_cons_self
    obtain ⟨k, a, rfl⟩ : ∃ k a, e = k ++ [a] := ⟨e.dropLast, e.getLast hne, (List.dropLast_append_getLast hne).symm⟩
    have hx : exposure (k ++ [a]) = (k.map fun b => (b, false)) ++ [(a, true)] := by
      unfold exposure
      simp
    obtain ⟨m1, h1, e1⟩ := frames_unread s tt st hg k m [] h fun b hb => hsz b (List.mem_append_left _ hb)
    have hsa := hsz a (List.mem_append_right _ List.mem_cons_self)
    rw [List.nil_append] at h1
    obtain ⟨m2, e2, h2⟩ := frame_read s tt st hg m1 k h1 a hsa.1 hsa.2
    have e3 := ih m2 h2 fun e' he' => hes e' (List.mem_cons_of_mem _ he')
    rw [List.flatMap_cons, hx, List.append_assoc, e1 ([(a, true)] ++ es.flatMap exposure) (slopesOf s tt st (total s (k ++ [a])) :: _)]
    · rw [List.flatMap_cons, List.length_append, List.length_singleton, Nat.add_sub_cancel, List.append_assoc, List.singleton_append]
    · rw [List.singleton_append, frames, e2]
      dsimp only
      rw [e3]

/-! ### Static measurements -/

/-- Measurement of the sub-aperture `q` from the detector `d`, relative to the detector `d0`. -/
noncomputable def rel (s : Sh) (d0 d : ℕ → ℕ → ℝ) (q : ℕ × ℕ) : ℝ × ℝ := ((centre s d q).1 - (centre s d0 q).1, (centre s d q).2 - (centre s d0 q).2)

theorem slopesOf_rel (s : Sh) (d0 d : ℕ → ℕ → ℝ) : slopesOf s s.removeTT ((subs s).map (centre s d0)) d = pack s (rel s d0 d) := by
  unfold slopesOf pack rel
  dsimp only
  simp only [List.map_map, List.zipWith_map, List.zipWith_self]
  rfl

theorem zipWith_zero (l : List ℝ) : List.zipWith (fun a b : ℝ => a - b) l (List.replicate l.length 0) = l := by
  induction l with
  | nil => rfl
  | cons a l ih => rw [List.length_cons, List.replicate_succ, List.zipWith_cons_cons, ih, sub_zero]

theorem total_single (s : Sh) (a : Arr2) : total s [a] = det s (wave a s.N) := by
  funext r c
  unfold total
  simp

theorem static_eq (s : Sh) (hg : good s = true) (flat0 : Arr2) (hr : 2 ≤ flat0.rows) (hc : 2 ≤ flat0.cols) :
    ∃ m, static s flat0 = .ok ((subs s).map (centre s (det s (wave flat0 s.N))), m) ∧ ∀ q ∈ subs s, m.focus q = acc s [] q := by
  obtain ⟨m, e, h⟩ := frame_read s false (List.replicate (subs s).length (0, 0)) hg fresh [] (fun q _ => by
    funext i j
    unfold acc fresh
    simp) flat0 hr hc
  refine ⟨m, ?_, h⟩
  unfold static
  rw [e]
  dsimp only
  rw [List.nil_append, total_single]
  have hv : slopesOf s false (List.replicate (subs s).length (0, 0)) (det s (wave flat0 s.N)) =
      ((subs s).map (centre s (det s (wave flat0 s.N)))).map Prod.fst ++ ((subs s).map (centre s (det s (wave flat0 s.N)))).map Prod.snd := by
    unfold slopesOf
    dsimp only
    rw [if_neg Bool.false_ne_true, List.map_replicate, List.map_replicate]
    have h1 := zipWith_zero (((subs s).map (centre s (det s (wave flat0 s.N)))).map Prod.fst)
    have h2 := zipWith_zero (((subs s).map (centre s (det s (wave flat0 s.N)))).map Prod.snd)
    rw [List.length_map, List.length_map] at h1 h2
    rw [h1, h2]
  rw [hv]
  congr 2
  have hl : (((subs s).map (centre s (det s (wave flat0 s.N)))).map Prod.fst).length = (subs s).length := by simp
  rw [List.take_left' hl, List.drop_left' hl, List.zip_map', List.map_map]
  exact List.map_congr_left fun q _ => rfl

/-! ### C134 -/

/-- Entry by entry the mean of some vectors with `n` entries. -/
noncomputable def average (n : ℕ) (l : List (List ℝ)) : List ℝ := (List.range n).map fun i => (l.map fun v => v.getD i 0).sum / l.length

theorem rel_meas (s : Sh) (a : Arr2) (R C : ℕ) (hR : a.rows = R) (hC : a.cols = C) : rel s (det s (wave ⟨R, C, fun _ _ => 0⟩ s.N)) (det s (wave a s.N)) = meas s a := by
  subst hR hC
  rfl

/-- All that a sensor does in exposures, whatever the centroider. -/
theorem session_eq (s : Sh) (hg : good s = true) (R C : ℕ) (hR : 2 ≤ R) (hC : 2 ≤ C) (es : List (List Arr2)) (hes : ∀ e ∈ es, e ≠ [] ∧ ∀ a ∈ e, a.rows = R ∧ a.cols = C) :
    session s ⟨R, C, fun _ _ => 0⟩ (es.flatMap exposure) =
      .ok (es.flatMap fun e => List.replicate (e.length - 1) (List.replicate (2 * (subs s).length) 0) ++ [pack s (rel s (det s (wave ⟨R, C, fun _ _ => 0⟩ s.N)) (total s e))]) := by
  unfold session
  obtain ⟨m, e, h⟩ := static_eq s hg ⟨R, C, fun _ _ => 0⟩ hR hC
  rw [e]
  dsimp only
  rw [frames_exposures s _ _ hg es m h fun e he => ⟨(hes e he).1, fun a ha => by rw [((hes e he).2 a ha).1, ((hes e he).2 a ha).2]; exact ⟨hR, hC⟩⟩]
  simp only [slopesOf_rel]

theorem measure_good (s : Sh) (a : Arr2) (hr : 2 ≤ a.rows) (hc : 2 ≤ a.cols) (v : List ℝ) (h : measure s a = .ok v) : good s = true ∧ v = pack s (meas s a) := by
  rw [measure_eq s a hr hc] at h
  by_cases hg : good s = true
  · rw [if_pos hg] at h
    exact ⟨hg, (Except.ok.inj h).symm⟩
  · rw [if_neg hg] at h
    cases h

theorem sum_sub {α : Type} (l : List α) (f g : α → ℝ) : (l.map fun a => f a - g a).sum = (l.map f).sum - (l.map g).sum := by
  induction l with
  | nil => simp
  | cons a l ih =>
    simp only [List.map_cons, List.sum_cons, ih]
    ring

theorem pack_average (s : Sh) (n : ℕ) (hn : 0 < n) (l : List Arr2) (hl : l.length = n) (f : ℕ × ℕ → ℝ × ℝ) (g : Arr2 → ℕ × ℕ → ℝ × ℝ)
    (h1 : ∀ q ∈ subs s, (f q).1 = (l.map fun a => (g a q).1).sum / n) (h2 : ∀ q ∈ subs s, (f q).2 = (l.map fun a => (g a q).2).sum / n) :
    pack s f = average (2 * (subs s).length) (l.map fun a => pack s (g a)) := by
  have hn' : (n : ℝ) ≠ 0 := Nat.cast_ne_zero.mpr hn.ne'
  have hmean : ∀ (F : ℕ × ℕ → ℝ) (G : Arr2 → ℕ × ℕ → ℝ), (∀ q ∈ subs s, F q = (l.map fun a => G a q).sum / n) → ∀ q ∈ subs s,
      (F q - if s.removeTT = true then ((subs s).map F).sum / (subs s).length else 0) =
        (l.map fun a => G a q - if s.removeTT = true then ((subs s).map (G a)).sum / (subs s).length else 0).sum / n := by
    intro F G h q hq
    have hs : ((subs s).map F).sum = (l.map fun a => ((subs s).map (G a)).sum).sum / n := by
      rw [List.map_congr_left h]
      simp only [div_eq_mul_inv]
      rw [List.sum_map_mul_right, sum_swap]
    rw [h q hq, hs]
    rw [sum_sub]
    by_cases htt : s.removeTT = true
    · simp only [if_pos htt]
      have : (l.map fun a => ((subs s).map (G a)).sum / ((subs s).length : ℝ)).sum = (l.map fun a => ((subs s).map (G a)).sum).sum / ((subs s).length : ℝ) := by
        simp only [div_eq_mul_inv]
        rw [List.sum_map_mul_right]
      rw [this]
      ring
    · simp only [if_neg htt]
      simp
  apply List.ext_getElem?
  intro i
  have hgl : ∀ a, (pack s (g a)).length = 2 * (subs s).length := fun a => pack_length s (g a)
  by_cases hi : i < 2 * (subs s).length
  · have hav : (average (2 * (subs s).length) (l.map fun a => pack s (g a)))[i]? = some ((l.map fun a => (pack s (g a)).getD i 0).sum / n) := by
      unfold average
      rw [List.getElem?_map, List.getElem?_range hi, List.length_map, hl, Option.map_some, List.map_map]
      rfl
    rw [hav]
    by_cases hlt : i < (subs s).length
    · have hq : (subs s)[i]? = some ((subs s)[i]) := List.getElem?_eq_getElem hlt
      rw [(pack_get s f i _ hq).1, hmean (fun q => (f q).1) (fun a q => (g a q).1) h1 _ (List.getElem_mem hlt)]
      congr 3
      refine List.map_congr_left fun a _ => ?_
      rw [List.getD_eq_getElem?_getD, (pack_get s (g a) i _ hq).1]
      rfl
    · obtain ⟨k, rfl⟩ : ∃ k, i = (subs s).length + k := ⟨i - (subs s).length, by omega⟩
      have hk : k < (subs s).length := by omega
      have hq : (subs s)[k]? = some ((subs s)[k]) := List.getElem?_eq_getElem hk
      rw [(pack_get s f k _ hq).2, hmean (fun q => (f q).2) (fun a q => (g a q).2) h2 _ (List.getElem_mem hk)]
      congr 3
      refine List.map_congr_left fun a _ => ?_
      rw [List.getD_eq_getElem?_getD, (pack_get s (g a) k _ hq).2]
      rfl
  · rw [List.getElem?_eq_none (by rw [pack_length]; omega), List.getElem?_eq_none (by unfold average; rw [List.length_map, List.length_range]; omega)]

theorem sum2_list {α : Type} (n : ℕ) (l : List α) (f : α → ℕ → ℕ → ℝ) : ∑ i ∈ range n, ∑ j ∈ range n, (l.map fun a => f a i j).sum = (l.map fun a => ∑ i ∈ range n, ∑ j ∈ range n, f a i j).sum := by
  induction l with
  | nil => simp
  | cons a l ih => simp only [List.map_cons, List.sum_cons, sum_add_distrib, ih]

/-- Sum over the pixels of a sub-aperture, weighted. -/
noncomputable def over (s : Sh) (q : ℕ × ℕ) (wt : ℕ → ℕ → ℝ) (d : ℕ → ℕ → ℝ) : ℝ := ∑ i ∈ range s.p, ∑ j ∈ range s.p, wt i j * cut s.p s.g d q i j

/-- Light on the whole detector. -/
noncomputable def light (s : Sh) (d : ℕ → ℕ → ℝ) : ℝ := ∑ i ∈ range (detSize s.nx s.p s.g), ∑ j ∈ range (detSize s.nx s.p s.g), d i j

theorem over_total (s : Sh) (l : List Arr2) (q : ℕ × ℕ) (wt : ℕ → ℕ → ℝ) : over s q wt (total s l) = (l.map fun a => over s q wt (det s (wave a s.N))).sum := by
  unfold over cut total
  rw [← sum2_list]
  refine sum_congr rfl fun i _ => sum_congr rfl fun j _ => ?_
  rw [List.sum_map_mul_left]

theorem light_total (s : Sh) (l : List Arr2) : light s (total s l) = (l.map fun a => light s (det s (wave a s.N))).sum := by
  unfold light total
  rw [← sum2_list]

theorem over_readOut (s : Sh) (d : ℕ → ℕ → ℝ) (q : ℕ × ℕ) (wt : ℕ → ℕ → ℝ) : over s q wt (readOut s d) = over s q wt d * (s.photons / light s d) := by
  unfold over
  rw [sum_mul]
  refine sum_congr rfl fun i _ => ?_
  rw [sum_mul]
  refine sum_congr rfl fun j _ => ?_
  unfold cut readOut
  change _ * (_ / light s d * _) = _
  ring

theorem centre_cog (s : Sh) (hcog : s.cent = cog s.p) (d : ℕ → ℕ → ℝ) (q : ℕ × ℕ) :
    centre s d q = (over s q (fun _ j => j + 1 / 2) d * (s.photons / light s d) / (over s q (fun _ _ => 1) d * (s.photons / light s d)) - s.p / 2,
      over s q (fun i _ => i + 1 / 2) d * (s.photons / light s d) / (over s q (fun _ _ => 1) d * (s.photons / light s d)) - s.p / 2) := by
  rw [← over_readOut, ← over_readOut, ← over_readOut]
  unfold centre over
  rw [hcog]
  unfold cog
  dsimp only
  simp only [one_mul]

theorem quot_mean {α : Type} (l : List α) (hl : l ≠ []) (f : α → ℝ) (k L t c c0 : ℝ) :
    (l.map f).sum * (k / (l.length * t)) / (l.length * L * (k / (l.length * t))) - c - c0 = (l.map fun a => f a * (k / t) / (L * (k / t)) - c - c0).sum / l.length := by
  have hn : (l.length : ℝ) ≠ 0 := Nat.cast_ne_zero.mpr (by rw [Ne, List.length_eq_zero_iff]; exact hl)
  have e : (l.map fun a => f a * (k / t) / (L * (k / t)) - c - c0).sum = (l.map f).sum * ((k / t) / (L * (k / t))) - l.length * (c + c0) := by
    clear hn hl
    induction l with
    | nil => simp
    | cons a l ih =>
      simp only [List.map_cons, List.sum_cons, ih, List.length_cons]
      push_cast
      ring
  rw [e, sub_div, mul_div_cancel_left₀ _ hn]
  have e2 : k / (l.length * t) = (k / t) / l.length := by
    rw [mul_comm, div_div]
  rw [e2]
  have e3 : (l.length * L * (k / t / l.length) : ℝ) = L * (k / t) := by
    field_simp
  rw [e3]
  ring

end Soapy.ShExposure

namespace Soapy.Props

open Soapy.ShExposure

/-- **C134 (mean).** A Shack-Hartmann sensor with field stop and centre-of-gravity centroiding is made and runs exposures of any lengths: the frames that are not read return zeros, and the frame that ends an exposure returns the mean
of the measurements that its frames give one by one, whether or not tip and tilt are removed.  (`vs a` are the measurements of a single frame with the phase `a`.) -/
theorem C134_mean (s : Sh) (hcog : s.cent = cog s.p) (ho : s.o = 1) (hp : 1 ≤ s.p) (hb : 1 ≤ s.b) (hm : s.m ≤ s.p * s.b) (R C : ℕ) (hR : 2 ≤ R) (hC : 2 ≤ C) (es : List (List Arr2)) (hne : es ≠ [])
    (hes : ∀ e ∈ es, e ≠ [] ∧ ∀ a ∈ e, a.rows = R ∧ a.cols = C) (vs : Arr2 → List ℝ) (hvs : ∀ e ∈ es, ∀ a ∈ e, measure s a = .ok (vs a)) :
    session s ⟨R, C, fun _ _ => 0⟩ (es.flatMap exposure) =
      .ok (es.flatMap fun e => List.replicate (e.length - 1) (List.replicate (2 * (subs s).length) 0) ++ [average (2 * (subs s).length) (e.map vs)]) := by
  have hsz : ∀ e ∈ es, ∀ a ∈ e, 2 ≤ a.rows ∧ 2 ≤ a.cols := fun e he a ha => by
    rw [((hes e he).2 a ha).1, ((hes e he).2 a ha).2]; exact ⟨hR, hC⟩
  have hg : good s = true := by
    obtain ⟨e, he⟩ := List.exists_mem_of_ne_nil _ hne
    obtain ⟨a, ha⟩ := List.exists_mem_of_ne_nil _ (hes e he).1
    exact (measure_good s a (hsz e he a ha).1 (hsz e he a ha).2 _ (hvs e he a ha)).1
  rw [session_eq s hg R C hR hC es hes]
  congr 1
  refine List.flatMap_congr fun e he => ?_
  congr 2
  have hev : e.map vs = e.map fun a => pack s (meas s a) := List.map_congr_left fun a ha => (measure_good s a (hsz e he a ha).1 (hsz e he a ha).2 _ (hvs e he a ha)).2
  rw [hev]
  have hene := (hes e he).1
  have hpos : 0 < e.length := List.length_pos_iff.mpr hene
  obtain ⟨a0, ha0⟩ := List.exists_mem_of_ne_nil _ hene
  have hlight : ∀ a, light s (det s (wave a s.N)) = light s (det s (wave a0 s.N)) := by
    intro a
    unfold light
    rw [det_total s _ hg ho hp, det_total s _ hg ho hp]
    exact congrArg List.sum (List.map_congr_left fun q _ => pic_total s _ _ q ho hp hb hm)
  have hL : ∀ a, ∀ q ∈ subs s, over s q (fun _ _ => 1) (det s (wave a s.N)) = over s q (fun _ _ => 1) (det s (wave a0 s.N)) := by
    intro a q hq
    have h : ∀ a, over s q (fun _ _ => 1) (det s (wave a s.N)) = ∑ i ∈ range s.p, ∑ j ∈ range s.p, pic s (wave a s.N) q i j := by
      intro a
      unfold over
      refine sum_congr rfl fun i hi => sum_congr rfl fun j hj => ?_
      rw [one_mul, det_cut s _ hg ho hp q hq i j (mem_range.mp hi) (mem_range.mp hj)]
    rw [h, h]
    exact pic_total s _ _ q ho hp hb hm
  have hconst : ∀ x : ℝ, (e.map fun _ : Arr2 => x).sum = e.length * x := by
    intro x
    rw [List.map_const', List.sum_replicate, nsmul_eq_mul]
  have ht : light s (total s e) = e.length * light s (det s (wave a0 s.N)) := by
    rw [light_total, ← hconst]
    exact congrArg List.sum (List.map_congr_left fun a _ => hlight a)
  have hT : ∀ q ∈ subs s, over s q (fun _ _ => 1) (total s e) = e.length * over s q (fun _ _ => 1) (det s (wave a0 s.N)) := by
    intro q hq
    rw [over_total, ← hconst]
    exact congrArg List.sum (List.map_congr_left fun a _ => hL a q hq)
  refine pack_average s e.length hpos e rfl _ _ (fun q hq => ?_) fun q hq => ?_
  · have : ∀ a ∈ e, (meas s a q).1 = over s q (fun _ j => j + 1 / 2) (det s (wave a s.N)) * (s.photons / light s (det s (wave a0 s.N))) /
        (over s q (fun _ _ => 1) (det s (wave a0 s.N)) * (s.photons / light s (det s (wave a0 s.N)))) - s.p / 2 - (centre s (det s (wave ⟨R, C, fun _ _ => 0⟩ s.N)) q).1 := by
      intro a ha
      rw [← rel_meas s a R C ((hes e he).2 a ha).1 ((hes e he).2 a ha).2]
      unfold rel
      rw [centre_cog s hcog (det s (wave a s.N)), hlight a, hL a q hq]
    rw [List.map_congr_left this, ← quot_mean e hene]
    unfold rel
    rw [centre_cog s hcog (total s e), over_total s e q fun _ j => j + 1 / 2, ht, hT q hq]
  · have : ∀ a ∈ e, (meas s a q).2 = over s q (fun i _ => i + 1 / 2) (det s (wave a s.N)) * (s.photons / light s (det s (wave a0 s.N))) /
        (over s q (fun _ _ => 1) (det s (wave a0 s.N)) * (s.photons / light s (det s (wave a0 s.N)))) - s.p / 2 - (centre s (det s (wave ⟨R, C, fun _ _ => 0⟩ s.N)) q).2 := by
      intro a ha
      rw [← rel_meas s a R C ((hes e he).2 a ha).1 ((hes e he).2 a ha).2]
      unfold rel
      rw [centre_cog s hcog (det s (wave a s.N)), hlight a, hL a q hq]
    rw [List.map_congr_left this, ← quot_mean e hene]
    unfold rel
    rw [centre_cog s hcog (total s e), over_total s e q fun i _ => i + 1 / 2, ht, hT q hq]

end Soapy.Props

namespace Soapy.ShExposure

end Soapy.ShExposure

namespace Soapy.Props

open Soapy.ShExposure

/-- **C134 (steady).** With any centroider, with or without field stop: an exposure in which the phase does not change measures what a single frame measures. -/
theorem C134_steady (s : Sh) (R C : ℕ) (hR : 2 ≤ R) (hC : 2 ≤ C) (a : Arr2) (ha : a.rows = R ∧ a.cols = C) (n : ℕ) (v : List ℝ) (hv : measure s a = .ok v) :
    session s ⟨R, C, fun _ _ => 0⟩ (exposure (List.replicate (n + 1) a)) = .ok (List.replicate n (List.replicate (2 * (subs s).length) 0) ++ [v]) := by
  obtain ⟨hg, hval⟩ := measure_good s a (by rw [ha.1]; exact hR) (by rw [ha.2]; exact hC) v hv
  have h := session_eq s hg R C hR hC [List.replicate (n + 1) a] (by
    intro e he
    rw [List.mem_singleton] at he
    subst he
    refine ⟨by simp, fun b hb => ?_⟩
    rw [List.eq_of_mem_replicate hb]
    exact ha)
  rw [List.flatMap_singleton, List.flatMap_singleton, List.length_replicate, Nat.add_sub_cancel] at h
  rw [h, hval, ← rel_meas s a R C ha.1 ha.2]
  have hro : readOut s (total s (List.replicate (n + 1) a)) = readOut s (det s (wave a s.N)) := by
    funext r c
    have e : ∀ r c, total s (List.replicate (n + 1) a) r c = ((n + 1 : ℕ) : ℝ) * det s (wave a s.N) r c := by
      intro r c
      unfold total
      rw [List.map_replicate, List.sum_replicate, nsmul_eq_mul]
    unfold readOut
    simp only [e, ← mul_sum]
    rw [mul_div_mul_left _ _ (Nat.cast_ne_zero.mpr (Nat.succ_ne_zero n))]
  have hc : ∀ q, centre s (total s (List.replicate (n + 1) a)) q = centre s (det s (wave a s.N)) q := by
    intro q
    unfold centre
    rw [hro]
  have : rel s (det s (wave ⟨R, C, fun _ _ => 0⟩ s.N)) (total s (List.replicate (n + 1) a)) = rel s (det s (wave ⟨R, C, fun _ _ => 0⟩ s.N)) (det s (wave a s.N)) := by
    funext q
    unfold rel
    rw [hc]
  rw [this]

end Soapy.Props

namespace Soapy.ShExposure

theorem static_bad (s : Sh) (hg : ¬ good s = true) (flat0 : Arr2) (hr : 2 ≤ flat0.rows) (hc : 2 ≤ flat0.cols) : static s flat0 = .error .valueError := by
  unfold static frame
  rw [sampled_tab flat0 s.N hr hc]
  dsimp only
  by_cases hin : (subs s).all (inside s) = true
  · rw [if_pos hin, place_eq, if_neg]
    rw [List.all_map, List.all_eq_true]
    intro h
    apply hg
    unfold good
    rw [List.all_eq_true] at hin ⊢
    intro q hq
    rw [Bool.and_eq_true]
    exact ⟨hin q hq, h q hq⟩
  · rw [if_neg hin]

end Soapy.ShExposure

namespace Soapy.Props

open Soapy.ShExposure

/-- **C134 (order).** With any centroider: what an exposure measures does not depend on the order of its frames. -/
theorem C134_order (s : Sh) (R C : ℕ) (hR : 2 ≤ R) (hC : 2 ≤ C) (e e' : List Arr2) (h : e.Perm e') (hes : ∀ a ∈ e, a.rows = R ∧ a.cols = C) :
    session s ⟨R, C, fun _ _ => 0⟩ (exposure e) = session s ⟨R, C, fun _ _ => 0⟩ (exposure e') := by
  by_cases hg : good s = true
  swap
  · unfold session
    rw [static_bad s hg ⟨R, C, fun _ _ => 0⟩ hR hC]
  by_cases hne : e = []
  · subst hne
    rw [List.nil_perm.mp h]
  have h1 := session_eq s hg R C hR hC [e] (by
    intro x hx
    rw [List.mem_singleton] at hx
    subst hx
    exact ⟨hne, hes⟩)
  have h2 := session_eq s hg R C hR hC [e'] (by
    intro x hx
    rw [List.mem_singleton] at hx
    subst hx
    exact ⟨fun h0 => hne (by rw [h0] at h; exact List.perm_nil.mp h), fun a ha => hes a (h.mem_iff.mpr ha)⟩)
  rw [List.flatMap_singleton, List.flatMap_singleton] at h1 h2
  have ht : total s e = total s e' := by
    funext r c
    unfold total
    exact (h.map _).sum_eq
  rw [h1, h2, ht, h.length_eq]

end Soapy.Props

namespace Soapy.ShExposure

/-! ### Without field stop -/

theorem det_nonneg (s : Sh) (hfill : ∀ x y, 0 ≤ s.fill x y) (w : ℕ → ℕ → ℚ) (r c : ℕ) : 0 ≤ det s w r c := by
  unfold det
  refine List.sum_nonneg fun x hx => ?_
  obtain ⟨q, _, rfl⟩ := List.mem_map.mp hx
  unfold part
  split_ifs
  · unfold pic
    refine mul_nonneg ?_ (hfill _ _)
    unfold binned
    exact sum_nonneg fun i _ => sum_nonneg fun j _ => by unfold spot; exact Complex.normSq_nonneg _
  · exact le_refl _

theorem over_nonneg (s : Sh) (d : ℕ → ℕ → ℝ) (hd : ∀ r c, 0 ≤ d r c) (q : ℕ × ℕ) (wt : ℕ → ℕ → ℝ) (hw : ∀ i j, 0 ≤ wt i j) : 0 ≤ over s q wt d :=
  sum_nonneg fun i _ => sum_nonneg fun j _ => mul_nonneg (hw i j) (hd _ _)

theorem over_dark (s : Sh) (d : ℕ → ℕ → ℝ) (hd : ∀ r c, 0 ≤ d r c) (q : ℕ × ℕ) (h : over s q (fun _ _ => 1) d = 0) (wt : ℕ → ℕ → ℝ) : over s q wt d = 0 := by
  unfold over at h ⊢
  have h1 := (sum_eq_zero_iff_of_nonneg fun i _ => sum_nonneg fun j _ => mul_nonneg zero_le_one (hd _ _)).mp h
  refine sum_eq_zero fun i hi => sum_eq_zero fun j hj => ?_
  have h2 := (sum_eq_zero_iff_of_nonneg fun j _ => mul_nonneg zero_le_one (hd _ _)).mp (h1 i hi) j hj
  rw [one_mul] at h2
  unfold cut
  rw [h2, mul_zero]

theorem light_pos (s : Sh) (d : ℕ → ℕ → ℝ) (hd : ∀ r c, 0 ≤ d r c) (q : ℕ × ℕ) (hq : q ∈ subs s) (h : over s q (fun _ _ => 1) d ≠ 0) : 0 < light s d := by
  have hnn : 0 ≤ light s d := sum_nonneg fun i _ => sum_nonneg fun j _ => hd i j
  rcases hnn.lt_or_eq with h0 | h0
  · exact h0
  · exfalso
    apply h
    have h1 := (sum_eq_zero_iff_of_nonneg fun i _ => sum_nonneg fun j _ => hd i j).mp h0.symm
    have a := cent_le s.nx s.p s.g q.1 (subs_lt s q hq).1
    have b := cent_le s.nx s.p s.g q.2 (subs_lt s q hq).2
    unfold over
    refine sum_eq_zero fun i hi => sum_eq_zero fun j hj => ?_
    rw [mem_range] at hi hj
    have h2 := (sum_eq_zero_iff_of_nonneg fun j _ => hd _ j).mp (h1 (centCoord s.p s.g q.1 + i) (mem_range.mpr (by omega))) (centCoord s.p s.g q.2 + j) (mem_range.mpr (by omega))
    unfold cut
    rw [h2, mul_zero]

/-- Centre of gravity without the normalisation. -/
theorem centre_quot (s : Sh) (hcog : s.cent = cog s.p) (hph : 0 < s.photons) (d : ℕ → ℕ → ℝ) (hd : ∀ r c, 0 ≤ d r c) (q : ℕ × ℕ) (hq : q ∈ subs s) :
    centre s d q = (over s q (fun _ j => j + 1 / 2) d / over s q (fun _ _ => 1) d - s.p / 2, over s q (fun i _ => i + 1 / 2) d / over s q (fun _ _ => 1) d - s.p / 2) := by
  rw [centre_cog s hcog]
  by_cases h : over s q (fun _ _ => 1) d = 0
  · rw [h]
    simp
  · have := light_pos s d hd q hq h
    rw [mul_div_mul_right _ _ (by positivity), mul_div_mul_right _ _ (by positivity)]

theorem quot_between {α : Type} (l : List α) (hl : l ≠ []) (f L : α → ℝ) (hL : ∀ a, 0 ≤ L a) (hf : ∀ a, L a = 0 → f a = 0) (lo hi : ℝ) (h : ∀ a ∈ l, lo ≤ f a / L a ∧ f a / L a ≤ hi) :
    lo ≤ (l.map f).sum / (l.map L).sum ∧ (l.map f).sum / (l.map L).sum ≤ hi := by
  have hb : ∀ a ∈ l, lo * L a ≤ f a ∧ f a ≤ hi * L a := by
    intro a ha
    rcases (hL a).lt_or_eq with h0 | h0
    · exact ⟨(le_div_iff₀ h0).mp (h a ha).1, (div_le_iff₀ h0).mp (h a ha).2⟩
    · rw [hf a h0.symm, ← h0]
      simp
  have h1 : lo * (l.map L).sum ≤ (l.map f).sum := by
    rw [← List.sum_map_mul_left]
    exact List.sum_le_sum fun a ha => (hb a ha).1
  have h2 : (l.map f).sum ≤ hi * (l.map L).sum := by
    rw [← List.sum_map_mul_left]
    exact List.sum_le_sum fun a ha => (hb a ha).2
  have hs : 0 ≤ (l.map L).sum := List.sum_nonneg fun x hx => by
    obtain ⟨a, _, rfl⟩ := List.mem_map.mp hx
    exact hL a
  rcases hs.lt_or_eq with h0 | h0
  · exact ⟨(le_div_iff₀ h0).mpr h1, (div_le_iff₀ h0).mpr h2⟩
  · obtain ⟨a, ha⟩ := List.exists_mem_of_ne_nil _ hl
    have hz : L a = 0 := by
      have hle : L a ≤ (l.map L).sum := List.single_le_sum (fun x hx => by
        obtain ⟨b, _, rfl⟩ := List.mem_map.mp hx
        exact hL b) _ (List.mem_map_of_mem ha)
      linarith [hL a]
    have := h a ha
    rw [hz, div_zero] at this
    rw [← h0, div_zero]
    exact this

end Soapy.ShExposure

namespace Soapy.Props

open Soapy.ShExposure

/-- **C134 (between).** Also without field stop, where the light in the pixels of a sub-aperture changes from frame to frame: a measurement of an exposure lies between the least and the greatest of those its frames give one by
one. -/
theorem C134_between (s : Sh) (hcog : s.cent = cog s.p) (hfill : ∀ x y, 0 ≤ s.fill x y) (hph : 0 < s.photons) (htt : s.removeTT = false) (R C : ℕ) (hR : 2 ≤ R) (hC : 2 ≤ C) (e : List Arr2) (hne : e ≠ [])
    (hes : ∀ a ∈ e, a.rows = R ∧ a.cols = C) (vs : Arr2 → List ℝ) (hvs : ∀ a ∈ e, measure s a = .ok (vs a)) :
    ∃ v : List ℝ, session s ⟨R, C, fun _ _ => 0⟩ (exposure e) = .ok (List.replicate (e.length - 1) (List.replicate (2 * (subs s).length) 0) ++ [v]) ∧ v.length = 2 * (subs s).length ∧
      ∀ k < 2 * (subs s).length, ∀ lo hi : ℝ, (∀ a ∈ e, lo ≤ (vs a).getD k 0 ∧ (vs a).getD k 0 ≤ hi) → lo ≤ v.getD k 0 ∧ v.getD k 0 ≤ hi := by
  have hsz : ∀ a ∈ e, 2 ≤ a.rows ∧ 2 ≤ a.cols := fun a ha => by
    rw [(hes a ha).1, (hes a ha).2]; exact ⟨hR, hC⟩
  have hg : good s = true := by
    obtain ⟨a, ha⟩ := List.exists_mem_of_ne_nil _ hne
    exact (measure_good s a (hsz a ha).1 (hsz a ha).2 _ (hvs a ha)).1
  have h1 := session_eq s hg R C hR hC [e] (by
    intro x hx
    rw [List.mem_singleton] at hx
    subst hx
    exact ⟨hne, hes⟩)
  rw [List.flatMap_singleton, List.flatMap_singleton] at h1
  refine ⟨_, h1, pack_length _ _, ?_⟩
  have hv : ∀ a ∈ e, vs a = pack s (rel s (det s (wave ⟨R, C, fun _ _ => 0⟩ s.N)) (det s (wave a s.N))) := by
    intro a ha
    rw [rel_meas s a R C (hes a ha).1 (hes a ha).2]
    exact (measure_good s a (hsz a ha).1 (hsz a ha).2 _ (hvs a ha)).2
  have hd : ∀ a : Arr2, ∀ r c, 0 ≤ det s (wave a s.N) r c := fun a => det_nonneg s hfill _
  have htot : ∀ r c, 0 ≤ total s e r c := fun r c => List.sum_nonneg fun x hx => by
    obtain ⟨a, _, rfl⟩ := List.mem_map.mp hx
    exact hd a r c
  have key : ∀ (wt : ℕ → ℕ → ℝ) (c : ℝ) (q : ℕ × ℕ) (lo hi : ℝ),
      (∀ a ∈ e, lo ≤ over s q wt (det s (wave a s.N)) / over s q (fun _ _ => 1) (det s (wave a s.N)) - s.p / 2 - c ∧
        over s q wt (det s (wave a s.N)) / over s q (fun _ _ => 1) (det s (wave a s.N)) - s.p / 2 - c ≤ hi) →
      lo ≤ over s q wt (total s e) / over s q (fun _ _ => 1) (total s e) - s.p / 2 - c ∧ over s q wt (total s e) / over s q (fun _ _ => 1) (total s e) - s.p / 2 - c ≤ hi := by
    intro wt c q lo hi h
    rw [over_total s e q wt, over_total s e q fun _ _ => 1]
    have := quot_between e hne (fun a => over s q wt (det s (wave a s.N))) (fun a => over s q (fun _ _ => 1) (det s (wave a s.N)))
      (fun a => over_nonneg s _ (hd a) q _ fun _ _ => zero_le_one) (fun a h0 => over_dark s _ (hd a) q h0 wt) (lo + s.p / 2 + c) (hi + s.p / 2 + c)
      (fun a ha => ⟨by linarith [(h a ha).1], by linarith [(h a ha).2]⟩)
    exact ⟨by linarith [this.1], by linarith [this.2]⟩
  intro k hk lo hi h
  by_cases hlt : k < (subs s).length
  · have hq : (subs s)[k]? = some ((subs s)[k]) := List.getElem?_eq_getElem hlt
    have hmem := List.getElem_mem hlt
    have e1 : ∀ f, (pack s f).getD k 0 = (f ((subs s)[k])).1 := by
      intro f
      rw [List.getD_eq_getElem?_getD, (pack_get s f k _ hq).1, htt]
      simp
    rw [e1]
    unfold rel
    rw [centre_quot s hcog hph _ htot _ hmem]
    refine key _ _ _ _ _ fun a ha => ?_
    have := h a ha
    rw [hv a ha, e1] at this
    unfold rel at this
    rw [centre_quot s hcog hph _ (hd a) _ hmem] at this
    exact this
  · obtain ⟨k, rfl⟩ : ∃ j, k = (subs s).length + j := ⟨k - (subs s).length, by omega⟩
    have hlt : k < (subs s).length := by omega
    have hq : (subs s)[k]? = some ((subs s)[k]) := List.getElem?_eq_getElem hlt
    have hmem := List.getElem_mem hlt
    have e1 : ∀ f, (pack s f).getD ((subs s).length + k) 0 = (f ((subs s)[k])).2 := by
      intro f
      rw [List.getD_eq_getElem?_getD, (pack_get s f k _ hq).2, htt]
      simp
    rw [e1]
    unfold rel
    rw [centre_quot s hcog hph _ htot _ hmem]
    refine key _ _ _ _ _ fun a ha => ?_
    have := h a ha
    rw [hv a ha, e1] at this
    unfold rel at this
    rw [centre_quot s hcog hph _ (hd a) _ hmem] at this
    exact this

end Soapy.Props

namespace Soapy.ShExposure

/-! ### Examples -/

/-- The small sensor of `ShSensor`, with field stop and without. -/
example : (toySh 1).cent = cog (toySh 1).p ∧ (toySh 1).o = 1 ∧ (toySh 1).m ≤ (toySh 1).p * (toySh 1).b ∧ (∃ v, measure (toySh 1) stepPhase = .ok v) ∧ ∃ v, measure (toySh 1) (flat stepPhase) = .ok v := by
  refine ⟨rfl, rfl, le_refl _, ?_, ?_⟩
  · rw [measure_eq _ stepPhase (by decide) (by decide), if_pos (toy_good 1 (Or.inl rfl))]
    exact ⟨_, rfl⟩
  · rw [measure_eq _ (flat stepPhase) (by decide) (by decide), if_pos (toy_good 1 (Or.inl rfl))]
    exact ⟨_, rfl⟩

example : (∀ x y, 0 ≤ (toySh 2).fill x y) ∧ 0 < (toySh 2).photons ∧ (toySh 2).removeTT = false ∧ (toySh 2).cent = cog (toySh 2).p ∧ ∃ v, measure (toySh 2) stepPhase = .ok v := by
  refine ⟨fun _ _ => zero_le_one, zero_lt_one, rfl, rfl, ?_⟩
  rw [measure_eq _ stepPhase (by decide) (by decide), if_pos (toy_good 2 (Or.inr rfl))]
  exact ⟨_, rfl⟩

/-- An exposure of two different frames followed by one of a single frame. -/
example : [[stepPhase, flat stepPhase], [stepPhase]].flatMap exposure = [(stepPhase, false), (flat stepPhase, true), (stepPhase, true)] := rfl

end Soapy.ShExposure
