/-
Property theorems C140: no axis and no direction is preferred.
-/
import Verif.Props.Margin

namespace Soapy.Props

open Soapy.Mirror Soapy.Los Soapy.Whole Soapy.Loop Soapy.Control Soapy.Vec

/-! ### What is compared -/

/-- A way to look at a simulation from another side: which pixel of an image of `n × n` pixels is shown where, what becomes of the geometry of a line of sight, and which lines of sight are admitted. -/
structure Turn where
  act : ℕ → ℕ × ℕ → ℕ × ℕ
  geom : Geom → Geom
  Ok : Geom → ℚ → Prop

/-- Exchange of the two axes. -/
def Turn.transpose : Turn where
  act := fun _ p => (p.2, p.1)
  geom := fun g => { g with angle := (g.angle.2, g.angle.1), launch := (g.launch.2, g.launch.1) }
  Ok := fun _ _ => True

/-- Reversal of the first axis. The samples have to end a little inside the screen. -/
def Turn.flip : Turn where
  act := fun n p => (n - 1 - p.1, p.2)
  geom := fun g => { g with angle := (-g.angle.1, g.angle.2), launch := (-g.launch.1, g.launch.2) }
  Ok := fun g h => 2 ≤ g.nOut ∧ BeamInside g h ∧ ∀ x ∈ rowsOf g h, 1 / 1000000000 ≤ x

/-- First `s`, then `t`. -/
def Turn.comp (t s : Turn) : Turn where
  act := fun n p => s.act n (t.act n p)
  geom := fun g => t.geom (s.geom g)
  Ok := fun g h => s.Ok g h ∧ t.Ok (s.geom g) h

/-- The image `f'` shows `f` from the other side. -/
def Turned (t : Turn) (n : ℕ) (f f' : ℕ → ℕ → ℚ) : Prop := ∀ a b, a < n → b < n → f' a b = f (t.act n (a, b)).1 (t.act n (a, b)).2

/-- An image, seen from the other side. -/
def turnImg (t : Turn) (n : ℕ) (f : ℕ → ℕ → ℚ) : ℕ → ℕ → ℚ := fun a b => f (t.act n (a, b)).1 (t.act n (a, b)).2

/-- What has to be true of such a change: it moves the pixels of images, keeps the middle in the middle, and a turned line of sight sees a turned image turned. -/
structure Turn.Good (t : Turn) : Prop where
  scrn : ∀ g, (t.geom g).scrn = g.scrn
  nOut : ∀ g, (t.geom g).nOut = g.nOut
  sum : ∀ n (F : ℕ × ℕ → ℚ), ∑ i ∈ Finset.range n, ∑ j ∈ Finset.range n, F (t.act n (i, j)) = ∑ i ∈ Finset.range n, ∑ j ∈ Finset.range n, F (i, j)
  inside : ∀ n p, p.1 < n → p.2 < n → (t.act n p).1 < n ∧ (t.act n p).2 < n
  pad : ∀ n k p, p.1 < n → p.2 < n → t.act (n + 2 * k) (p.1 + k, p.2 + k) = ((t.act n p).1 + k, (t.act n p).2 + k)
  rim : ∀ n k p, p.1 < n + 2 * k → p.2 < n + 2 * k → ((k ≤ (t.act (n + 2 * k) p).1 ∧ (t.act (n + 2 * k) p).1 < n + k ∧ k ≤ (t.act (n + 2 * k) p).2 ∧ (t.act (n + 2 * k) p).2 < n + k) ↔
    (k ≤ p.1 ∧ p.1 < n + k ∧ k ≤ p.2 ∧ p.2 < n + k))
  view : ∀ g h, 2 ≤ g.scrn → t.Ok g h → ∀ f f', Turned t g.scrn f f' → Turned t g.nOut (bil g.scrn (metapupilCoords g h) f) (bil g.scrn (metapupilCoords (t.geom g) h) f')

/-! ### The two generators -/

private theorem clip_range (S : ℕ) (hS : 2 ≤ S) (x : ℚ) : 0 ≤ Interp.clip 0 ((S : ℚ) - 1000000001 / 1000000000) x ∧ Interp.clip 0 ((S : ℚ) - 1000000001 / 1000000000) x < S - 1 := by
  have : (2 : ℚ) ≤ S := by exact_mod_cast hS
  unfold Interp.clip
  constructor
  · exact le_min (le_max_right _ _) (by linarith)
  · exact lt_of_le_of_lt (min_le_right _ _) (by linarith)

private theorem bilin_swap (S : ℕ) (f f' : ℕ → ℕ → ℚ) (h : ∀ a b, a < S → b < S → f' a b = f b a) (x y : ℚ) (hx : 0 ≤ x ∧ x < S - 1) (hy : 0 ≤ y ∧ y < S - 1) :
    Interp.bilinAt ⟨S, S, f'⟩ y x = Interp.bilinAt ⟨S, S, f⟩ x y := by
  obtain ⟨i, hi, i1, i2⟩ := Interp.cell_exists S x hx.1 hx.2
  obtain ⟨j, hj, j1, j2⟩ := Interp.cell_exists S y hy.1 hy.2
  rw [Interp.bilinAt_ok ⟨S, S, f⟩ x y i j ⟨i1, i2⟩ ⟨j1, j2⟩ hi hj, Interp.bilinAt_ok ⟨S, S, f'⟩ y x j i ⟨j1, j2⟩ ⟨i1, i2⟩ hj hi]
  dsimp only
  rw [h j i (by omega) (by omega), h (j + 1) i hj (by omega), h j (i + 1) (by omega) hi, h (j + 1) (i + 1) hj hi]
  congr 1
  ring

theorem C140_transpose : Turn.transpose.Good where
  scrn := fun _ => rfl
  nOut := fun _ => rfl
  sum := fun n F => Finset.sum_comm
  inside := fun n p h1 h2 => ⟨h2, h1⟩
  pad := fun n k p _ _ => rfl
  rim := fun n k p _ _ => by simp only [Turn.transpose]; omega
  view := by
    intro g h hS _ f f' hf i j hi hj
    have e : metapupilCoords (Turn.transpose.geom g) h = ((metapupilCoords g h).2, (metapupilCoords g h).1) := rfl
    rw [e]
    simp only [Turn.transpose]
    have r1 : ∀ x ∈ (metapupilCoords g h).1, 0 ≤ x ∧ x < (g.scrn : ℚ) - 1 := by
      intro x hx
      obtain ⟨y, _, rfl⟩ := List.mem_map.mp hx
      exact clip_range g.scrn hS y
    have r2 : ∀ x ∈ (metapupilCoords g h).2, 0 ≤ x ∧ x < (g.scrn : ℚ) - 1 := by
      intro x hx
      obtain ⟨y, _, rfl⟩ := List.mem_map.mp hx
      exact clip_range g.scrn hS y
    unfold bil layerVal
    dsimp only
    cases ex : (metapupilCoords g h).1[j]? with
    | none => cases (metapupilCoords g h).2[i]? <;> rfl
    | some x =>
      cases ey : (metapupilCoords g h).2[i]? with
      | none => rfl
      | some y =>
        simp only [Interp.interpVal, Bool.false_eq_true, if_false]
        rw [bilin_swap g.scrn f f' hf x y (r1 x (List.mem_of_getElem? ex)) (r2 y (List.mem_of_getElem? ey))]

private theorem bilin_flip (S : ℕ) (f f' : ℕ → ℕ → ℚ) (h : ∀ a b, a < S → b < S → f' a b = f (S - 1 - a) b) (x y : ℚ) (hx : 0 < x ∧ x < S - 1) (hy : 0 ≤ y ∧ y < S - 1) :
    Interp.bilinAt ⟨S, S, f'⟩ (S - 1 - x) y = Interp.bilinAt ⟨S, S, f⟩ x y := by
  obtain ⟨i, hi, i1, i2⟩ := Interp.cell_exists S x hx.1.le hx.2
  obtain ⟨j, hj, j1, j2⟩ := Interp.cell_exists S y hy.1 hy.2
  rw [Interp.bilinAt_ok ⟨S, S, f⟩ x y i j ⟨i1, i2⟩ ⟨j1, j2⟩ hi hj]
  have hSq : ((S - 1 - i : ℕ) : ℚ) = S - 1 - i := by
    rw [Nat.cast_sub (by omega), Nat.cast_sub (by omega)]; simp
  have hSq2 : ((S - 2 - i : ℕ) : ℚ) = S - 2 - i := by
    rw [Nat.cast_sub (by omega), Nat.cast_sub (by omega)]; simp
  by_cases hint : x = i
  · have i0 : i ≠ 0 := by
      rintro rfl
      rw [hint] at hx
      simp at hx
    rw [Interp.bilinAt_ok ⟨S, S, f'⟩ (S - 1 - x) y (S - 1 - i) j ⟨by rw [hSq]; linarith, by rw [hSq]; linarith⟩ ⟨j1, j2⟩ (by dsimp only; omega) hj]
    dsimp only
    rw [hSq, h (S - 1 - i) j (by omega) (by omega), h (S - 1 - i) (j + 1) (by omega) hj, show S - 1 - (S - 1 - i) = i by omega, hint]
    congr 1
    ring
  · have hlt : (i : ℚ) < x := lt_of_le_of_ne i1 (Ne.symm hint)
    rw [Interp.bilinAt_ok ⟨S, S, f'⟩ (S - 1 - x) y (S - 2 - i) j ⟨by rw [hSq2]; linarith, by rw [hSq2]; linarith⟩ ⟨j1, j2⟩ (by dsimp only; omega) hj]
    dsimp only
    rw [hSq2, h (S - 2 - i) j (by omega) (by omega), h (S - 2 - i) (j + 1) (by omega) hj, h (S - 2 - i + 1) j (by omega) (by omega), h (S - 2 - i + 1) (j + 1) (by omega) hj,
      show S - 1 - (S - 2 - i) = i + 1 by omega, show S - 1 - (S - 2 - i + 1) = i by omega]
    congr 1
    ring

private theorem footprint_flip (g : Geom) (a l h : ℚ) : footprint (Turn.flip.geom g) (-a) (-l) h = (-(footprint g a l h).1, (footprint g a l h).2) := by
  obtain ⟨up, _, _, s, _, _, _, _⟩ := g
  refine Prod.ext ?_ rfl
  simp only [footprint, Turn.flip]
  cases up
  · simp
  · by_cases hs : s = 0
    · simp only [hs, if_true]; ring
    · simp only [hs, if_true, if_false]; ring

private theorem rows_flip (g : Geom) (h : ℚ) (hn : 2 ≤ g.nOut) (i : ℕ) (hi : i < g.nOut) (x : ℚ) (hx : (rowsOf g h)[g.nOut - 1 - i]? = some x) :
    (rowsOf (Turn.flip.geom g) h)[i]? = some (g.scrn - 1 - x) := by
  unfold rowsOf Interp.linspace at hx ⊢
  rw [List.getElem?_map, List.getElem?_range (by omega)] at hx
  rw [show (Turn.flip.geom g).nOut = g.nOut from rfl, List.getElem?_map, List.getElem?_range hi]
  simp only [Option.map_some, Option.some.injEq] at hx ⊢
  rw [if_neg (by omega)] at hx ⊢
  rw [← hx]
  have e : ((g.nOut - 1 - i : ℕ) : ℚ) = g.nOut - 1 - i := by
    rw [Nat.cast_sub (by omega), Nat.cast_sub (by omega)]; simp
  have hq : (g.nOut : ℚ) - 1 ≠ 0 := by
    have : (2 : ℚ) ≤ g.nOut := by exact_mod_cast hn
    linarith
  rw [e]
  simp only [altitudeCoords, edges]
  rw [show (Turn.flip.geom g).angle.1 = -g.angle.1 from rfl, show (Turn.flip.geom g).launch.1 = -g.launch.1 from rfl, footprint_flip]
  generalize footprint g g.angle.1 g.launch.1 h = f
  simp only [Turn.flip]
  generalize g.scale = r
  have : ∀ u v N : ℚ, N ≠ 0 → ∀ k : ℚ, (N - k) * ((v - u) / N) = v - u - k * ((v - u) / N) := by
    intro u v N hN k
    field_simp
  rw [this _ _ _ hq]
  simp only [div_eq_mul_inv]
  ring

private theorem sum_rev (n : ℕ) (F : ℕ → ℚ) : ∑ i ∈ Finset.range n, F (n - 1 - i) = ∑ i ∈ Finset.range n, F i := Finset.sum_range_reflect F n

theorem C140_flip : Turn.flip.Good where
  scrn := fun _ => rfl
  nOut := fun _ => rfl
  sum := fun n F => sum_rev n fun i => ∑ j ∈ Finset.range n, F (i, j)
  inside := fun n p h1 h2 => ⟨show n - 1 - p.1 < n by omega, h2⟩
  pad := fun n k p h1 h2 => Prod.ext (show n + 2 * k - 1 - (p.1 + k) = n - 1 - p.1 + k by omega) rfl
  rim := fun n k p h1 h2 => by simp only [Turn.flip]; omega
  view := by
    intro g h hS ⟨hn, hin, h0⟩ f f' hf i j hi hj
    have hi' : g.nOut - 1 - i < g.nOut := by omega
    have hlen : ∀ g : Geom, (rowsOf g h).length = g.nOut := fun g => by simp [rowsOf, Interp.linspace]
    have hcols : colsOf (Turn.flip.geom g) h = colsOf g h := rfl
    have hin' : BeamInside (Turn.flip.geom g) h := by
      intro x hx
      rcases hx with hx | hx
      · obtain ⟨q, hq⟩ := List.mem_iff_getElem?.mp hx
        have hql : q < g.nOut := by
          have := (List.getElem?_eq_some_iff.mp hq).1
          rwa [hlen] at this
        have hy : (rowsOf g h)[g.nOut - 1 - q]? = some ((rowsOf g h)[g.nOut - 1 - q]'(by rw [hlen]; omega)) := List.getElem?_eq_getElem _
        have := rows_flip g h hn q hql _ hy
        rw [hq, Option.some.injEq] at this
        have m := List.mem_of_getElem? hy
        have b := hin _ (.inl m)
        have c := h0 _ m
        rw [this]
        change _ ∧ _ ≤ (g.scrn : ℚ) - 1 - 1 / 1000000000
        constructor <;> linarith [b.1, b.2]
      · exact hin x (.inr hx)
    rw [beam_coords g h hin, beam_coords _ h hin', hcols]
    simp only [Turn.flip]
    unfold bil layerVal
    dsimp only
    have hy : (rowsOf g h)[g.nOut - 1 - i]? = some ((rowsOf g h)[g.nOut - 1 - i]'(by rw [hlen]; omega)) := List.getElem?_eq_getElem _
    have e := rows_flip g h hn i hi _ hy
    simp only [Turn.flip] at e
    rw [e, hy]
    generalize (rowsOf g h)[g.nOut - 1 - i]'(by rw [hlen]; omega) = x at hy
    cases ey : (colsOf g h)[j]? with
    | none => rfl
    | some y =>
      have m := List.mem_of_getElem? hy
      have b := hin _ (.inl m)
      have c := h0 _ m
      have d := hin _ (.inr (List.mem_of_getElem? ey))
      simp only [Interp.interpVal, Bool.false_eq_true, if_false]
      rw [bilin_flip g.scrn f f' hf x y ⟨by linarith, by linarith [b.2]⟩ ⟨d.1, by linarith [d.2]⟩]

/-- One after the other. -/
theorem C140_comp {t s : Turn} (ht : t.Good) (hs : s.Good) : (t.comp s).Good where
  scrn := fun g => by simp only [Turn.comp]; rw [ht.scrn, hs.scrn]
  nOut := fun g => by simp only [Turn.comp]; rw [ht.nOut, hs.nOut]
  sum := fun n F => by
    simp only [Turn.comp]
    rw [ht.sum n fun p => F (s.act n p), hs.sum n F]
  inside := fun n p h1 h2 => hs.inside n _ (ht.inside n p h1 h2).1 (ht.inside n p h1 h2).2
  pad := fun n k p h1 h2 => by
    simp only [Turn.comp]
    rw [ht.pad n k p h1 h2, hs.pad n k _ (ht.inside n p h1 h2).1 (ht.inside n p h1 h2).2]
  rim := fun n k p h1 h2 => by
    simp only [Turn.comp]
    rw [hs.rim n k _ (ht.inside _ p h1 h2).1 (ht.inside _ p h1 h2).2, ht.rim n k p h1 h2]
  view := by
    intro g h hS ⟨h1, h2⟩ f f' hf
    have a := hs.view g h hS h1 f (turnImg s g.scrn f) fun _ _ _ _ => rfl
    have b := ht.view (s.geom g) h (by rw [hs.scrn]; exact hS) h2 (turnImg s g.scrn f) f' (by
      rw [hs.scrn]
      intro x y hx hy
      exact hf x y hx hy)
    rw [hs.nOut, hs.scrn] at b
    intro i j hi hj
    have hin := ht.inside g.nOut (i, j) hi hj
    simp only [Turn.comp]
    rw [b i j hi hj, a _ _ hin.1 hin.2]

/-! ### What a sensor sees -/

/-- The sensor in a turned simulation. -/
def turnWfs (t : Turn) (w : LinWfs) : LinWfs := { w with geom := t.geom w.geom, coef := fun q => turnImg t w.geom.nOut (w.coef q) }

/-- The whole simulation, turned. -/
def turnOptics (t : Turn) (o : Optics) : Optics := { o with wfss := o.wfss.map (turnWfs t) }

/-- A mirror with turned influence functions. -/
def turnDm (t : Turn) (d : Persist.Dm) : Persist.Dm := { d with shapes := d.shapes.map fun a => { a with px := turnImg t d.nElem a.px } }

/-- All lines of sight are admitted. -/
def AllOk (t : Turn) (o : Optics) : Prop := ∀ w ∈ o.wfss, ∀ h, h ∈ o.layerAlts ∨ h ∈ o.dmAlts → t.Ok w.geom h

/-- Stacks of which the second shows the first from the other side. -/
def TurnedStack (t : Turn) (S : ℕ) (s s' : Stack) : Prop := (∀ l, Turned t S (s.1 l) (s'.1 l)) ∧ ∀ l, Turned t S (s.2 l) (s'.2 l)

theorem turn_sound {t : Turn} (ht : t.Good) {o : Optics} (ho : Optics.Sound o) : Optics.Sound (turnOptics t o) := by
  refine ⟨ho.1, fun w hw => ?_⟩
  obtain ⟨v, hv, rfl⟩ := List.mem_map.mp hw
  obtain ⟨h1, h2⟩ := ho.2 v hv
  exact ⟨by simp only [turnWfs]; rw [ht.scrn]; exact h1, h2⟩

private theorem seen_turn {t : Turn} (ht : t.Good) {o : Optics} (ho : Optics.Sound o) (hok : AllOk t o) (w : LinWfs) (hw : w ∈ o.wfss) (v v' : Stack) (hv : TurnedStack t o.scrn v v') (q : ℕ) :
    seen (turnOptics t o) (turnWfs t w) v' q = seen o w v q := by
  obtain ⟨hs, _⟩ := ho.2 w hw
  have alt : ∀ (l : List ℚ) (k : ℕ), k < l.length → l.getD k 0 ∈ l := by
    intro l k hk
    rw [List.getD_eq_getElem?_getD, List.getElem?_eq_getElem hk]
    exact List.getElem_mem hk
  unfold seen
  rw [← ht.sum w.geom.nOut fun p => w.coef q p.1 p.2 * view o w v p.1 p.2]
  rw [show (turnWfs t w).geom.nOut = w.geom.nOut from ht.nOut _]
  refine Finset.sum_congr rfl fun i hi => Finset.sum_congr rfl fun j hj => ?_
  have hi := Finset.mem_range.mp hi
  have hj := Finset.mem_range.mp hj
  change turnImg t w.geom.nOut (w.coef q) i j * _ = _
  unfold turnImg
  congr 1
  unfold view
  change w.k * _ = _
  congr 2
  · refine Finset.sum_congr rfl fun l hl => ?_
    have := ht.view w.geom (o.layerAlts.getD l 0) (by rw [hs]; exact ho.1) (hok w hw _ (.inl (alt _ _ (Finset.mem_range.mp hl)))) (v.1 l) (v'.1 l) (by rw [hs]; exact hv.1 l) i j hi hj
    rw [hs] at this
    exact this
  · refine Finset.sum_congr rfl fun l hl => ?_
    have := ht.view w.geom (o.dmAlts.getD l 0) (by rw [hs]; exact ho.1) (hok w hw _ (.inr (alt _ _ (Finset.mem_range.mp hl)))) (v.2 l) (v'.2 l) (by rw [hs]; exact hv.2 l) i j hi hj
    rw [hs] at this
    exact this

private theorem meas_turn {t : Turn} (ht : t.Good) {o : Optics} (ho : Optics.Sound o) (hok : AllOk t o) (v v' : Stack) (hv : TurnedStack t o.scrn v v') :
    ∀ ws : List LinWfs, (∀ w ∈ ws, w ∈ o.wfss) → ∀ q, measAt (turnOptics t o) (ws.map (turnWfs t)) v' q = measAt o ws v q
  | [], _, _ => rfl
  | w :: ws, h, q => by
    rw [List.map_cons, measAt, measAt, meas_turn ht ho hok v v' hv ws (fun x hx => h x (by simp [hx])), seen_turn ht ho hok w (h w (by simp)) v v' hv]
    rfl

private theorem total_turn (t : Turn) (o : Optics) : (turnOptics t o).totalMeas = o.totalMeas := by
  unfold Optics.totalMeas turnOptics
  rw [List.map_map]
  rfl

/-! ### Mirrors -/

private theorem stretch_map {α β : Type} (f : α → β) (l : List α) (n : ℕ) : stretch (l.map f) n = (stretch l n).map f := by
  match l with
  | [] => rfl
  | [x] => simp [stretch]
  | _ :: _ :: _ => rfl

/-- **C140 (mirrors).**  The surface of a turned mirror is the surface of the mirror, turned; it fails where it failed. -/
theorem C140_surface {t : Turn} (ht : t.Good) (S : ℕ) (d : Persist.Dm) (hp : (S + d.nElem) % 2 = 0) (c : List ℚ) :
    (∃ e, dmFrame S d.nElem 0 d.shapes (zero2 S) c = .error e ∧ dmFrame S (turnDm t d).nElem 0 (turnDm t d).shapes (zero2 S) c = .error e) ∨
      ∃ a a', dmFrame S d.nElem 0 d.shapes (zero2 S) c = .ok a ∧ dmFrame S (turnDm t d).nElem 0 (turnDm t d).shapes (zero2 S) c = .ok a' ∧ Turned t S a.px a'.px := by
  have hfr : makeDMFrame (turnDm t d).nElem (turnDm t d).shapes c = (makeDMFrame d.nElem d.shapes c).map fun s => { s with px := turnImg t d.nElem s.px } := by
    unfold makeDMFrame turnDm
    simp only [List.length_map, stretch_map, List.isEmpty_map]
    split_ifs
    · rfl
    · rfl
    · simp only [Except.map, Except.ok.injEq, Arr2.mk.injEq, true_and]
      funext i j
      simp only [turnImg]
      congr 1
      rw [List.zipWith_map_left]
      rfl
  cases hs : makeDMFrame d.nElem d.shapes c with
  | error e =>
    left
    rw [hs] at hfr
    refine ⟨e, ?_, ?_⟩
    · unfold dmFrame; rw [hs]
    · unfold dmFrame; rw [hfr]; rfl
  | ok s =>
    right
    rw [hs] at hfr
    obtain ⟨a, e1, e2⟩ := surface_centred S d.nElem hp d.shapes c s hs
    obtain ⟨a', e3, e4⟩ := surface_centred S (turnDm t d).nElem hp (turnDm t d).shapes c _ hfr
    refine ⟨a, a', e1, e3, fun i j hi hj => ?_⟩
    obtain ⟨b1, b2⟩ := ht.inside S (i, j) hi hj
    rw [e2 _ _ b1 b2, e4 i j hi hj]
    have hsize : s.rows = d.nElem ∧ s.cols = d.nElem := by
      unfold makeDMFrame at hs
      simp only at hs
      split_ifs at hs
      cases hs
      exact ⟨rfl, rfl⟩
    have hmean : ({ s with px := turnImg t d.nElem s.px } : Arr2).mean = s.mean := by
      unfold Arr2.mean Arr2.total
      dsimp only
      rw [hsize.1, hsize.2]
      congr 1
      exact ht.sum d.nElem fun p => s.px p.1 p.2
    rw [hmean]
    change centred S d.nElem (fun i j => turnImg t d.nElem s.px i j - s.mean) i j = _
    generalize d.nElem = n at *
    unfold centred turnImg
    dsimp only
    rcases le_total n S with hnS | hnS
    · obtain ⟨p, rfl⟩ : ∃ p : ℕ, S = n + 2 * p := ⟨(S - n) / 2, by omega⟩
      have hoff : (((n + 2 * p : ℕ) : ℤ) - n) / 2 = p := by omega
      rw [hoff]
      have hr := ht.rim n p (i, j) hi hj
      dsimp only at hr
      by_cases hin : p ≤ i ∧ i < n + p ∧ p ≤ j ∧ j < n + p
      · have hin' := hr.mpr hin
        have hpad := ht.pad n p (i - p, j - p) (by dsimp only; omega) (by dsimp only; omega)
        dsimp only at hpad
        rw [show i - p + p = i by omega, show j - p + p = j by omega] at hpad
        rw [if_pos (by omega), if_pos (by omega), show ((i : ℤ) - p).toNat = i - p by omega, show ((j : ℤ) - p).toNat = j - p by omega, hpad]
        dsimp only
        congr 2
        all_goals omega
      · have hin' := fun h => hin (hr.mp h)
        rw [if_neg (by omega), if_neg (by omega)]
    · obtain ⟨p, rfl⟩ : ∃ p : ℕ, n = S + 2 * p := ⟨(n - S) / 2, by omega⟩
      have hoff : ((S : ℤ) - ((S + 2 * p : ℕ) : ℤ)) / 2 = -(p : ℤ) := by omega
      rw [hoff]
      have hpad := ht.pad S p (i, j) hi hj
      dsimp only at hpad
      rw [if_pos (by omega), if_pos (by omega), show ((i : ℤ) - -(p : ℤ)).toNat = i + p by omega, show ((j : ℤ) - -(p : ℤ)).toNat = j + p by omega, hpad]
      dsimp only
      congr 2
      all_goals omega

private theorem slot_turn {t : Turn} (ht : t.Good) (S k : ℕ) (a a' : Arr2) (h : Turned t S a.px a'.px) : TurnedStack t S (slot S k a) (slot S k a') := by
  refine ⟨fun l i j _ _ => rfl, fun l i j hi hj => ?_⟩
  simp only [slot]
  obtain ⟨b1, b2⟩ := ht.inside S (i, j) hi hj
  by_cases hl : l = k
  · rw [if_pos ⟨hl, hi, hj⟩, if_pos ⟨hl, b1, b2⟩, h i j hi hj]
  · rw [if_neg (by tauto), if_neg (by tauto)]

/-- **C140 (poke).**  Turned sensors answer a turned surface as the sensors answer the surface. -/
theorem C140_poke {t : Turn} (ht : t.Good) {o : Optics} (ho : Optics.Sound o) (hok : AllOk t o) (k : ℕ) (a a' : Arr2) (h : Turned t o.scrn a.px a'.px) : (turnOptics t o).poke k a' = o.poke k a := by
  have e : ∀ (o : Optics), Optics.Sound o → ∀ a, o.poke k a = (List.range o.totalMeas).map (measAt o o.wfss (0, -(slot o.scrn k a).2)) := by
    intro o ho a
    unfold Optics.poke
    rw [runWfs_none o ho _ _ fun _ h => h, runWfs_eq o ho _ _ _ fun _ h => h]
    rfl
  rw [e o ho, e (turnOptics t o) (turn_sound ht ho), total_turn]
  refine List.map_congr_left fun q _ => ?_
  refine meas_turn ht ho hok _ _ ⟨fun _ _ _ _ _ => rfl, fun l i j hi hj => ?_⟩ o.wfss (fun _ h => h) q
  simp only [Pi.neg_apply, neg_inj]
  exact (slot_turn ht o.scrn k a a' h).2 l i j hi hj

private theorem setValid_map {α β : Type} (f : α → β) (l : List α) (vs : List Bool) : setValid (l.map f) vs = (setValid l vs).map fun p => (p.1, p.2.map f) := by
  have go : ∀ (vs : List Bool) (i : ℕ), setValid.go (l.map f) i vs = (setValid.go l i vs).map (List.map f) := by
    intro vs
    induction vs with
    | nil => intro i; rfl
    | cons v vs ih =>
      intro i
      rw [setValid.go, setValid.go]
      cases v
      · simp only [Bool.false_eq_true, if_false]; exact ih _
      · simp only [if_true, List.getElem?_map]
        cases l[i]? with
        | none => rfl
        | some x =>
          simp only [Option.map_some]
          rw [ih]
          cases setValid.go l (i + 1) vs <;> rfl
  unfold setValid
  rw [go]
  cases setValid.go l 0 vs <;> rfl

/-- **C140 (calibration).**  The turned simulation measures the same interaction matrix, keeps the same actuators, or raises the same exception. -/
theorem C140_calibrate {t : Turn} (ht : t.Good) {o : Optics} (ho : Optics.Sound o) (hok : AllOk t o) (totalActs : ℕ) (dms : List Persist.Dm) (hd : ∀ d ∈ dms, (o.scrn + d.nElem) % 2 = 0) :
    (turnOptics t o).calibrate totalActs (dms.map (turnDm t)) = (o.calibrate totalActs dms).map fun p => (p.1.map (turnDm t), p.2) := by
  unfold Optics.calibrate
  have key : ∀ (ds : List Persist.Dm), (∀ d ∈ ds, (o.scrn + d.nElem) % 2 = 0) → ∀ k, Persist.makeIMat ⟨totalActs, (turnOptics t o).totalMeas, (turnOptics t o).scrn⟩ (turnOptics t o).poke k (ds.map (turnDm t)) =
      (Persist.makeIMat ⟨totalActs, o.totalMeas, o.scrn⟩ o.poke k ds).map fun p => (p.1.map (turnDm t), p.2) := by
    intro ds
    induction ds with
    | nil => intro _ k; rfl
    | cons d ds ih =>
      intro hd k
      rw [List.map_cons, Persist.makeIMat, Persist.makeIMat, ih (fun x hx => hd x (by simp [hx])) (k + 1)]
      have hrow : ∀ i, pokeRow d.nActs (fun c => dmFrame o.scrn (turnDm t d).nElem 0 (turnDm t d).shapes (zero2 o.scrn) c) ((turnOptics t o).poke k) i = pokeRow d.nActs (fun c => dmFrame o.scrn d.nElem 0 d.shapes (zero2 o.scrn) c) (o.poke k) i := by
        intro i
        unfold pokeRow
        rcases C140_surface ht o.scrn d (hd d (by simp)) (unit d.nActs i) with ⟨e, e1, e2⟩ | ⟨a, a', e1, e2, e3⟩
        · simp only [e1, e2]
        · simp only [e1, e2, C140_poke ht ho hok k a a' e3]
      have : makeDmIMat (turnDm t d).nActs (turnOptics t o).totalMeas (fun c => dmFrame (turnOptics t o).scrn (turnDm t d).nElem 0 (turnDm t d).shapes (zero2 (turnOptics t o).scrn) c) ((turnOptics t o).poke k) = makeDmIMat d.nActs o.totalMeas (fun c => dmFrame o.scrn d.nElem 0 d.shapes (zero2 o.scrn) c) (o.poke k) := by
        unfold makeDmIMat
        rw [total_turn]
        have := funext hrow
        change (match (List.range d.nActs).mapM (pokeRow d.nActs (fun c => dmFrame o.scrn (turnDm t d).nElem 0 (turnDm t d).shapes (zero2 o.scrn) c) ((turnOptics t o).poke k)) with | .error e => _ | .ok iMat => _) = _
        rw [this]
        rfl
      simp only
      rw [this]
      cases makeDmIMat d.nActs o.totalMeas (fun c => dmFrame o.scrn d.nElem 0 d.shapes (zero2 o.scrn) c) (o.poke k) with
      | error e => rfl
      | ok p =>
        simp only
        rw [show (turnDm t d).shapes = d.shapes.map fun a => { a with px := turnImg t d.nElem a.px } from rfl, setValid_map]
        cases setValid d.shapes p.1 with
        | error e => rfl
        | ok q =>
          simp only [Except.map]
          cases Persist.makeIMat ⟨totalActs, o.totalMeas, o.scrn⟩ o.poke (k + 1) ds with
          | error e => rfl
          | ok r => rfl
  exact key dms hd 0

/-! ### The loop -/

private theorem turned_add {t : Turn} {S : ℕ} {a b a' b' : Stack} (x : TurnedStack t S a a') (y : TurnedStack t S b b') : TurnedStack t S (a + b) (a' + b') := by
  refine ⟨fun l i j hi hj => ?_, fun l i j hi hj => ?_⟩
  · simp only [Prod.fst_add, Pi.add_apply]
    rw [x.1 l i j hi hj, y.1 l i j hi hj]
  · simp only [Prod.snd_add, Pi.add_apply]
    rw [x.2 l i j hi hj, y.2 l i j hi hj]

private theorem turned_sum {t : Turn} {S n : ℕ} {c c' : List Stack} (h : RenS id n (fun _ => TurnedStack t S) c c') : TurnedStack t S c.sum c'.sum := by
  have : List.Forall₂ (TurnedStack t S) c c' := by
    rw [List.forall₂_iff_get]
    refine ⟨by rw [h.len, h.len'], fun i h1 h2 => ?_⟩
    obtain ⟨s, s', e1, e2, e3⟩ := h.get i (by rw [← h.len]; exact h1)
    rw [id, List.getElem?_eq_getElem h1, Option.some.injEq] at e1
    rw [List.getElem?_eq_getElem h2, Option.some.injEq] at e2
    rw [List.get_eq_getElem, List.get_eq_getElem, e1, e2]
    exact e3
  clear h
  induction this with
  | nil => exact ⟨fun _ _ _ _ _ => rfl, fun _ _ _ _ _ => rfl⟩
  | cons h _ ih =>
    rw [List.sum_cons, List.sum_cons]
    exact turned_add h ih

/-- Turbulence of which the second shows the first from the other side, in every frame. -/
def TurnedTurb (t : Turn) (o : Optics) (turb turb' : ℕ → ℕ → ℕ → ℕ → ℚ) : Prop := ∀ i l, Turned t o.scrn (turb i l) (turb' i l)

/-- **C140 (sensors).**  Turned turbulence and turned corrections give the measurements of the turbulence and the corrections. -/
theorem C140_sense {t : Turn} (ht : t.Good) {o : Optics} (ho : Optics.Sound o) (hok : AllOk t o) (turb turb' : ℕ → ℕ → ℕ → ℕ → ℚ) (hT : TurnedTurb t o turb turb') (i : ℕ) (c c' : List Stack) (hc : TurnedStack t o.scrn c.sum c'.sum) :
    ((turnOptics t o).plant turb').sense () i c' = (o.plant turb).sense () i c := by
  rw [sense_eq o ho, sense_eq (turnOptics t o) (turn_sound ht ho), total_turn]
  congr 2
  refine List.map_congr_left fun q _ => ?_
  rw [senses_apply, senses_apply]
  refine meas_turn ht ho hok _ _ ⟨fun l a b ha hb => ?_, fun l a b ha hb => ?_⟩ o.wfss (fun _ h => h) q
  · simp only [Prod.fst_sub, Pi.sub_apply]
    rw [hT i l a b ha hb, hc.1 l a b ha hb]
  · simp only [Prod.snd_sub, Pi.sub_apply, Pi.zero_apply]
    rw [hc.2 l a b ha hb]

private theorem actuators_turn (t : Turn) (D : List Persist.Dm) : actuators (D.map (turnDm t)) = actuators D := by
  unfold actuators
  rw [List.map_map]
  refine List.map_congr_left fun d _ => ?_
  simp [turnDm]

/-- **C140 (loop).**  A run of the turned simulation with the same control matrix: the same commands and measurements in every frame, and corrections that are turned. -/
theorem C140_loop {t : Turn} (ht : t.Good) {o : Optics} (ho : Optics.Sound o) (hok : AllOk t o) {D : List Persist.Dm} (hd : ∀ d ∈ D, (o.scrn + d.nElem) % 2 = 0) (P : List (List ℚ)) (hP : ∀ r ∈ P, r.length = (actuators D).sum) (delay : ℤ) (nIters nActs : ℕ) (saveSlopes saveDm : Bool)
    (turb turb' : ℕ → ℕ → ℕ → ℕ → ℚ) (hT : TurnedTurb t o turb turb') {ctl : List DmCtl} (hctl : ctl.map DmCtl.nValid = actuators D) {frames : List (List DmCtl)} (hf : ∀ f ∈ frames, f.map DmCtl.nValid = actuators D)
    {s : Loop.State Unit Stack} {r : List (Trace Stack)} (hrun : runLoop (o.sys D P delay nIters saveSlopes saveDm) (o.plant turb) (initial (o.sys D P delay nIters saveSlopes saveDm) ctl o.totalMeas nActs ()) frames = .ok (s, r)) :
    ∃ s' r', runLoop ((turnOptics t o).sys (D.map (turnDm t)) P delay nIters saveSlopes saveDm) ((turnOptics t o).plant turb') (initial ((turnOptics t o).sys (D.map (turnDm t)) P delay nIters saveSlopes saveDm) ctl (turnOptics t o).totalMeas nActs ()) frames = .ok (s', r') ∧
      r'.map Trace.cmds = r.map Trace.cmds ∧ r'.map Trace.slopes = r.map Trace.slopes ∧ s'.allSlopes = s.allSlopes ∧
      List.Forall₂ (fun x x' => TurnedStack t o.scrn x.seenByWfs.sum x'.seenByWfs.sum ∧ TurnedStack t o.scrn x.seenBySci.sum x'.seenBySci.sum) r r' := by
  have hsys : RenSys id (actuators D) (actuators D) Eq (fun _ => TurnedStack t o.scrn) (o.sys D P delay nIters saveSlopes saveDm) ((turnOptics t o).sys (D.map (turnDm t)) P delay nIters saveSlopes saveDm) := by
    refine ⟨fun k hk c s h1 => ?_, fun a a' u hq h1 => ?_, rfl, rfl, rfl, rfl⟩
    · simp only [Optics.sys, id, List.getElem?_map] at h1 ⊢
      have hk : k < D.length := by simpa [actuators] using hk
      rw [List.getElem?_eq_getElem hk] at h1 ⊢
      simp only [Option.map_some] at h1 ⊢
      rcases C140_surface ht o.scrn D[k] (hd _ (List.getElem_mem hk)) c with ⟨e, e1, e2⟩ | ⟨a, a', e1, e2, e3⟩
      · rw [e1] at h1; simp at h1
      · rw [e1] at h1
        simp only [Except.ok.injEq] at h1
        subst h1
        rw [show (turnOptics t o).scrn = o.scrn from rfl, e2]
        exact ⟨_, rfl, slot_turn ht o.scrn k a a' e3⟩
    · subst hq
      have hl : (D.map (turnDm t)).map (fun d : Persist.Dm => d.shapes.length) = D.map fun d : Persist.Dm => d.shapes.length := actuators_turn t D
      refine ⟨u, ?_, renV_refl ?_⟩
      · simp only [Optics.sys] at h1 ⊢
        rw [hl]
        exact h1
      simp only [Optics.sys] at h1
      by_cases hl : P.length = a.length
      · obtain ⟨c, c1, c2, _⟩ := tdot_get (actuators D).sum P a hl hP
        rw [show (D.map fun d : Persist.Dm => d.shapes.length) = actuators D from rfl, c1, Except.ok.injEq] at h1
        rw [← h1, c2]
      · unfold Control.tdot at h1
        rw [if_neg hl] at h1
        cases h1
  have hpl : RenPlant id (actuators D).length Eq (fun _ => TurnedStack t o.scrn) (fun _ _ => True) (o.plant turb) ((turnOptics t o).plant turb') := by
    refine ⟨fun s s' i c c' t a _ hc h1 => ?_⟩
    refine ⟨t, a, ?_, trivial, rfl⟩
    rw [← h1]
    exact C140_sense ht ho hok turb turb' hT i c c' (turned_sum hc)
  have hz : TurnedStack t o.scrn (0 : Stack) 0 := ⟨fun _ _ _ _ _ => rfl, fun _ _ _ _ _ => rfl⟩
  have hff : List.Forall₂ (RenDms id (actuators D) (actuators D)) frames frames := by
    rw [List.forall₂_same]
    exact fun f hf' => ⟨ren_refl f, hf f hf', hf f hf'⟩
  obtain ⟨s', r', r1, r2, r3⟩ := C128_loop (fun _ _ _ _ _ x y => turned_add x y) (fun a b h => by rw [h]) hsys hpl hff
    (C128_initial hsys ⟨ren_refl ctl, hctl, hctl⟩ o.totalMeas (turnOptics t o).totalMeas nActs () () trivial (by rw [total_turn]) fun _ => hz) hrun
  refine ⟨s', r', r1, ?_, ?_, ?_, ?_⟩
  · have : ∀ {r r' : List (Trace Stack)}, List.Forall₂ (RenTrace id (actuators D) (actuators D) Eq fun _ => TurnedStack t o.scrn) r r' → r'.map Trace.cmds = r.map Trace.cmds := by
      intro r r' h
      induction h with
      | nil => rfl
      | cons h _ ih => rw [List.map_cons, List.map_cons, ih, renV_self h.cmds]
    exact this r3
  · have : ∀ {r r' : List (Trace Stack)}, List.Forall₂ (RenTrace id (actuators D) (actuators D) Eq fun _ => TurnedStack t o.scrn) r r' → r'.map Trace.slopes = r.map Trace.slopes := by
      intro r r' h
      induction h with
      | nil => rfl
      | cons h _ ih => rw [List.map_cons, List.map_cons, ih, h.slopes]
    exact this r3
  · exact (List.forall₂_eq_eq_eq ▸ r2.allSlopes : s.allSlopes = s'.allSlopes).symm
  · exact r3.imp fun _ _ h => ⟨turned_sum h.seenByWfs, turned_sum h.seenBySci⟩

/-! ### The gradient sensor -/

private theorem gradWeight_rev (s : ℕ) (a : ℚ) (k : ℕ) (hk : k < s) : gradWeight s a (s - 1 - k) = -gradWeight s a k := by
  unfold gradWeight
  simp only
  rw [← neg_div]
  congr 1
  have hs : (s : ℚ) ≠ 0 := by
    have : 0 < s := by omega
    positivity
  have hsum : ∑ m ∈ Finset.range s, a * (m : ℚ) = a * (s * (s - 1) / 2) := by
    rw [← Finset.mul_sum]
    congr 1
    have h := Finset.sum_range_id_mul_two s
    have h' : ((∑ i ∈ Finset.range s, i : ℕ) : ℚ) * 2 = s * ((s - 1 : ℕ) : ℚ) := by exact_mod_cast h
    rw [Nat.cast_sub (by omega)] at h'
    push_cast at h'
    linarith
  rw [hsum, show ((s - 1 - k : ℕ) : ℚ) = s - 1 - k by rw [Nat.cast_sub (by omega), Nat.cast_sub (by omega)]; simp]
  field_simp
  ring

/-- One sensor alone. -/
def oneSensor (S : ℕ) (layerAlts dmAlts : List ℚ) (w : LinWfs) : Optics := ⟨S, layerAlts, dmAlts, [w]⟩

private theorem one_sense (S : ℕ) (la da : List ℚ) (w : LinWfs) (hS : 2 ≤ S) (hs : w.geom.scrn = S) (hk : w.k ≠ 0) (turb : ℕ → ℕ → ℕ → ℕ → ℚ) (i : ℕ) (c : List Stack) :
    ((oneSensor S la da w).plant turb).sense () i c = .ok ((), (List.range w.nMeas).map (seen (oneSensor S la da w) w ((turb i, 0) - c.sum))) := by
  rw [sense_eq _ ⟨hS, by intro v hv; simp only [oneSensor, List.mem_singleton] at hv; subst hv; exact ⟨hs, hk⟩⟩]
  congr 2
  have : (oneSensor S la da w).totalMeas = w.nMeas := by simp [Optics.totalMeas, oneSensor]
  rw [this]
  refine List.map_congr_left fun q hq => ?_
  rw [senses_apply]
  simp only [oneSensor, measAt]
  rw [if_pos (List.mem_range.mp hq)]

private theorem seen_coef (S : ℕ) (la da : List ℚ) (w w' : LinWfs) (hg : w'.geom = w.geom) (hk : w'.k = w.k) (r : ℚ) (q q' : ℕ) (h : ∀ i j, i < w.geom.nOut → j < w.geom.nOut → w'.coef q' i j = r * w.coef q i j) (v : Stack) :
    seen (oneSensor S la da w') w' v q' = r * seen (oneSensor S la da w) w v q := by
  unfold seen
  rw [Finset.mul_sum, hg]
  refine Finset.sum_congr rfl fun i hi => ?_
  rw [Finset.mul_sum]
  refine Finset.sum_congr rfl fun j hj => ?_
  rw [h i j (Finset.mem_range.mp hi) (Finset.mem_range.mp hj), mul_assoc]
  congr 2
  unfold view
  rw [hg, hk]
  rfl

private theorem halves (n : ℕ) (f : ℕ → ℚ) : (List.range (2 * n)).map f = (List.range n).map f ++ (List.range n).map fun q => f (n + q) := by
  rw [two_mul, List.range_add, List.map_append, List.map_map]
  rfl

/-- **C140 (gradient sensor, axes exchanged).**  A gradient sensor whose mask and sub-apertures are transposed measures, on transposed screens, the same slopes; the two axes have changed places in the vector. -/
theorem C140_gradient_transpose (S : ℕ) (la da : List ℚ) (g : Geom) (k : ℚ) (mask : ℕ → ℕ → ℚ) (subs : List (ℕ × ℕ)) (s : ℕ) (a : ℚ) (hS : 2 ≤ S) (hs : g.scrn = S) (hk : k ≠ 0)
    (turb turb' : ℕ → ℕ → ℕ → ℕ → ℚ) (hT : ∀ i l, Turned .transpose S (turb i l) (turb' i l)) (i : ℕ) (c c' : List Stack) (hc : TurnedStack .transpose S c.sum c'.sum) :
    ∃ x y : List ℚ, x.length = subs.length ∧ y.length = subs.length ∧
      ((oneSensor S la da (gradWfs g k mask subs s a)).plant turb).sense () i c = .ok ((), x ++ y) ∧
      ((oneSensor S la da (gradWfs (Turn.transpose.geom g) k (fun i j => mask j i) (subs.map Prod.swap) s a)).plant turb').sense () i c' = .ok ((), y ++ x) := by
  set w := gradWfs g k mask subs s a with hw
  set u := gradWfs (Turn.transpose.geom g) k (fun i j => mask j i) (subs.map Prod.swap) s a with hu
  have hsound : Optics.Sound (oneSensor S la da w) := ⟨hS, by intro v hv; simp only [oneSensor, List.mem_singleton] at hv; subst hv; exact ⟨hs, hk⟩⟩
  have hok : AllOk .transpose (oneSensor S la da w) := fun _ _ _ _ => trivial
  set v : Stack := (turb i, 0) - c.sum with hv
  set v' : Stack := (turb' i, 0) - c'.sum with hv'
  have hvv : TurnedStack .transpose S v v' := by
    refine ⟨fun l a b ha hb => ?_, fun l a b ha hb => ?_⟩
    · simp only [hv, hv', Prod.fst_sub, Pi.sub_apply]
      rw [hT i l a b ha hb, hc.1 l a b ha hb]
    · simp only [hv, hv', Prod.snd_sub, Pi.sub_apply, Pi.zero_apply]
      rw [hc.2 l a b ha hb]
  have hseen : ∀ q, seen (oneSensor S la da (turnWfs .transpose w)) (turnWfs .transpose w) v' q = seen (oneSensor S la da w) w v q := fun q => seen_turn C140_transpose hsound hok w (by simp [oneSensor]) v v' hvv q
  have hsub : ∀ q, (subs.map Prod.swap).getD q (0, 0) = (subs.getD q (0, 0)).swap := by
    intro q
    simp only [List.getD_eq_getElem?_getD, List.getElem?_map]
    cases subs[q]? <;> rfl
  have h1 : ∀ q, q < subs.length → seen (oneSensor S la da u) u v' (subs.length + q) = seen (oneSensor S la da w) w v q := by
    intro q hq
    rw [← hseen q, seen_coef S la da (turnWfs .transpose w) u rfl rfl 1 q (subs.length + q) ?_ v', one_mul]
    intro i j _ _
    rw [one_mul]
    simp only [hu, hw, gradWfs, turnWfs, turnImg, Turn.transpose, List.length_map]
    simp only [if_neg (show ¬ subs.length + q < subs.length by omega), if_pos hq, show subs.length + q - subs.length = q by omega]
    rw [hsub]
    simp only [Prod.fst_swap, Prod.snd_swap]
    congr 1
    simp only [eq_iff_iff]
    tauto
  have h2 : ∀ q, q < subs.length → seen (oneSensor S la da u) u v' q = seen (oneSensor S la da w) w v (subs.length + q) := by
    intro q hq
    rw [← hseen (subs.length + q), seen_coef S la da (turnWfs .transpose w) u rfl rfl 1 (subs.length + q) q ?_ v', one_mul]
    intro i j _ _
    rw [one_mul]
    simp only [hu, hw, gradWfs, turnWfs, turnImg, Turn.transpose, List.length_map]
    simp only [if_neg (show ¬ subs.length + q < subs.length by omega), if_pos hq, show subs.length + q - subs.length = q by omega]
    rw [hsub]
    simp only [Prod.fst_swap, Prod.snd_swap]
    congr 1
    simp only [eq_iff_iff]
    tauto
  refine ⟨(List.range subs.length).map (seen (oneSensor S la da w) w v), (List.range subs.length).map fun q => seen (oneSensor S la da w) w v (subs.length + q), by simp, by simp, ?_, ?_⟩
  · rw [one_sense S la da w hS hs hk turb i c, show w.nMeas = 2 * subs.length from rfl, halves]
  · rw [one_sense S la da u hS hs hk turb' i c', show u.nMeas = 2 * subs.length by simp [hu, gradWfs], halves]
    congr 2
    congr 1
    · exact List.map_congr_left fun q hq => h2 q (List.mem_range.mp hq)
    · exact List.map_congr_left fun q hq => h1 q (List.mem_range.mp hq)

/-- **C140 (gradient sensor, first axis reversed).**  A gradient sensor whose mask and sub-apertures are mirrored measures, on mirrored screens, the same slopes along the second axis, and the slopes along the first axis with the other sign. -/
theorem C140_gradient_flip (S : ℕ) (la da : List ℚ) (g : Geom) (k : ℚ) (mask : ℕ → ℕ → ℚ) (subs : List (ℕ × ℕ)) (s : ℕ) (a : ℚ) (hS : 2 ≤ S) (hs : g.scrn = S) (hk : k ≠ 0) (hsubs : ∀ p ∈ subs, p.1 + s ≤ g.nOut)
    (hok : ∀ h, h ∈ la ∨ h ∈ da → Turn.flip.Ok g h) (turb turb' : ℕ → ℕ → ℕ → ℕ → ℚ) (hT : ∀ i l, Turned .flip S (turb i l) (turb' i l)) (i : ℕ) (c c' : List Stack) (hc : TurnedStack .flip S c.sum c'.sum) :
    ∃ x y : List ℚ, x.length = subs.length ∧ y.length = subs.length ∧
      ((oneSensor S la da (gradWfs g k mask subs s a)).plant turb).sense () i c = .ok ((), x ++ y) ∧
      ((oneSensor S la da (gradWfs (Turn.flip.geom g) k (fun i j => mask (g.nOut - 1 - i) j) (subs.map fun p => (g.nOut - s - p.1, p.2)) s a)).plant turb').sense () i c' = .ok ((), x ++ y.map fun z => -z) := by
  set w := gradWfs g k mask subs s a with hw
  set u := gradWfs (Turn.flip.geom g) k (fun i j => mask (g.nOut - 1 - i) j) (subs.map fun p => (g.nOut - s - p.1, p.2)) s a with hu
  have hsound : Optics.Sound (oneSensor S la da w) := ⟨hS, by intro v hv; simp only [oneSensor, List.mem_singleton] at hv; subst hv; exact ⟨hs, hk⟩⟩
  have hok' : AllOk .flip (oneSensor S la da w) := by
    intro v hv h hh
    simp only [oneSensor, List.mem_singleton] at hv
    subst hv
    exact hok h hh
  set v : Stack := (turb i, 0) - c.sum with hv
  set v' : Stack := (turb' i, 0) - c'.sum with hv'
  have hvv : TurnedStack .flip S v v' := by
    refine ⟨fun l a b ha hb => ?_, fun l a b ha hb => ?_⟩
    · simp only [hv, hv', Prod.fst_sub, Pi.sub_apply]
      rw [hT i l a b ha hb, hc.1 l a b ha hb]
    · simp only [hv, hv', Prod.snd_sub, Pi.sub_apply, Pi.zero_apply]
      rw [hc.2 l a b ha hb]
  have hseen : ∀ q, seen (oneSensor S la da (turnWfs .flip w)) (turnWfs .flip w) v' q = seen (oneSensor S la da w) w v q := fun q => seen_turn C140_flip hsound hok' w (by simp [oneSensor]) v v' hvv q
  have hsub : ∀ q, q < subs.length → (subs.map fun p => (g.nOut - s - p.1, p.2)).getD q (0, 0) = (g.nOut - s - (subs.getD q (0, 0)).1, (subs.getD q (0, 0)).2) := by
    intro q hq
    simp only [List.getD_eq_getElem?_getD, List.getElem?_map]
    rw [List.getElem?_eq_getElem hq]
    rfl
  have hin : ∀ q, q < subs.length → (subs.getD q (0, 0)).1 + s ≤ g.nOut := by
    intro q hq
    rw [List.getD_eq_getElem?_getD, List.getElem?_eq_getElem hq]
    exact hsubs _ (List.getElem_mem hq)
  have h1 : ∀ q, q < subs.length → seen (oneSensor S la da u) u v' q = seen (oneSensor S la da w) w v q := by
    intro q hq
    rw [← hseen q, seen_coef S la da (turnWfs .flip w) u rfl rfl 1 q q ?_ v', one_mul]
    intro i j hi hj
    have hi : i < g.nOut := hi
    rw [one_mul]
    simp only [hu, hw, gradWfs, turnWfs, turnImg, Turn.flip, List.length_map]
    simp only [if_pos hq]
    rw [hsub q hq]
    have := hin q hq
    generalize subs.getD q (0, 0) = p at *
    dsimp only
    congr 1
    simp only [eq_iff_iff]
    omega
  have h2 : ∀ q, q < subs.length → seen (oneSensor S la da u) u v' (subs.length + q) = -seen (oneSensor S la da w) w v (subs.length + q) := by
    intro q hq
    rw [← hseen (subs.length + q), seen_coef S la da (turnWfs .flip w) u rfl rfl (-1) (subs.length + q) (subs.length + q) ?_ v', neg_one_mul]
    intro i j hi hj
    have hi : i < g.nOut := hi
    simp only [hu, hw, gradWfs, turnWfs, turnImg, Turn.flip, List.length_map]
    simp only [if_neg (show ¬ subs.length + q < subs.length by omega), show subs.length + q - subs.length = q by omega]
    rw [hsub q hq]
    have := hin q hq
    generalize subs.getD q (0, 0) = p at *
    dsimp only
    by_cases hb : p.1 ≤ g.nOut - 1 - i ∧ g.nOut - 1 - i < p.1 + s ∧ p.2 ≤ j ∧ j < p.2 + s
    · rw [if_pos (by omega), if_pos hb, show i - (g.nOut - s - p.1) = s - 1 - (g.nOut - 1 - i - p.1) by omega, gradWeight_rev s a _ (by omega)]
      ring
    · rw [if_neg (by omega), if_neg hb]
      ring
  refine ⟨(List.range subs.length).map (seen (oneSensor S la da w) w v), (List.range subs.length).map fun q => seen (oneSensor S la da w) w v (subs.length + q), by simp, by simp, ?_, ?_⟩
  · rw [one_sense S la da w hS hs hk turb i c, show w.nMeas = 2 * subs.length from rfl, halves]
  · rw [one_sense S la da u hS hs hk turb' i c', show u.nMeas = 2 * subs.length by simp [hu, gradWfs], halves]
    congr 2
    congr 1
    · exact List.map_congr_left fun q hq => h1 q (List.mem_range.mp hq)
    · rw [List.map_map]
      exact List.map_congr_left fun q hq => h2 q (List.mem_range.mp hq)

/-! ### The eight ways to look -/

/-- A quarter of a turn. -/
def Turn.quarter : Turn := Turn.flip.comp Turn.transpose

/-- What a quarter of a turn does to pixels and to positions in the sky. -/
theorem C140_quarter : Turn.quarter.Good ∧ (∀ n p, Turn.quarter.act n p = (p.2, n - 1 - p.1)) ∧ ∀ g, (Turn.quarter.geom g).angle = (-g.angle.2, g.angle.1) :=
  ⟨C140_comp C140_flip C140_transpose, fun _ _ => rfl, fun _ => rfl⟩

/-- Half a turn. -/
theorem C140_half : (Turn.quarter.comp Turn.quarter).Good ∧ (∀ n (p : ℕ × ℕ), p.1 < n → p.2 < n → (Turn.quarter.comp Turn.quarter).act n p = (n - 1 - p.1, n - 1 - p.2)) ∧ ∀ g, ((Turn.quarter.comp Turn.quarter).geom g).angle = (-g.angle.1, -g.angle.2) :=
  ⟨C140_comp C140_quarter.1 C140_quarter.1, fun _ _ _ _ => rfl, fun _ => rfl⟩

/-! ### A simulation -/

private theorem whole_transpose_ok : AllOk .transpose wholeOptics := fun _ _ _ _ => trivial

private theorem whole_flip_ok : AllOk .flip wholeOptics := by
  have : ∀ w ∈ wholeOptics.wfss, ∀ h ∈ wholeOptics.layerAlts ++ wholeOptics.dmAlts, 2 ≤ w.geom.nOut ∧ (∀ x ∈ rowsOf w.geom h ++ colsOf w.geom h, 0 ≤ x ∧ x ≤ (w.geom.scrn : ℚ) - 1 - 1 / 1000000000) ∧ ∀ x ∈ rowsOf w.geom h, (1 : ℚ) / 1000000000 ≤ x := by decide +kernel
  intro w hw h hh
  obtain ⟨h1, h2, h3⟩ := this w hw h (List.mem_append.mpr hh)
  exact ⟨h1, fun x hx => h2 x (List.mem_append.mpr hx), h3⟩

/-- A simulation of two sensors and two mirrors, turned by exchange of the axes and by reversal of the first one: the same interaction matrix. -/
example : ∃ D, wholeOptics.calibrate 4 wholeDms = .ok (D, wholeImat) ∧ (turnOptics .transpose wholeOptics).calibrate 4 (wholeDms.map (turnDm .transpose)) = .ok (D.map (turnDm .transpose), wholeImat) ∧
    (turnOptics .flip wholeOptics).calibrate 4 (wholeDms.map (turnDm .flip)) = .ok (D.map (turnDm .flip), wholeImat) := by
  obtain ⟨D, h1, _⟩ := whole_ok
  have hpar : ∀ d ∈ wholeDms, (wholeOptics.scrn + d.nElem) % 2 = 0 := by
    intro d hd
    simp only [wholeDms, List.mem_cons, List.not_mem_nil, or_false] at hd
    rcases hd with rfl | rfl <;> rfl
  refine ⟨D, h1, ?_, ?_⟩
  · rw [C140_calibrate C140_transpose whole_sound whole_transpose_ok 4 wholeDms hpar, h1]; rfl
  · rw [C140_calibrate C140_flip whole_sound whole_flip_ok 4 wholeDms hpar, h1]; rfl

/-- A hundred frames in any turbulence, and in its mirror image: the same commands. -/
example (turb : ℕ → ℕ → ℕ → ℕ → ℚ) : ∃ D s r s' r', wholeOptics.calibrate 4 wholeDms = .ok (D, wholeImat) ∧
    runLoop (wholeOptics.sys D wholeCmat 1 100 true false) (wholeOptics.plant turb) (initial (wholeOptics.sys D wholeCmat 1 100 true false) (controls D [1 / 2, 1 / 4]) 4 4 ()) (List.replicate 100 (controls D [1 / 2, 1 / 4])) = .ok (s, r) ∧
    runLoop ((turnOptics .flip wholeOptics).sys (D.map (turnDm .flip)) wholeCmat 1 100 true false) ((turnOptics .flip wholeOptics).plant fun i l a b => turb i l (5 - a) b)
      (initial ((turnOptics .flip wholeOptics).sys (D.map (turnDm .flip)) wholeCmat 1 100 true false) (controls D [1 / 2, 1 / 4]) 4 4 ()) (List.replicate 100 (controls D [1 / 2, 1 / 4])) = .ok (s', r') ∧
    r.length = 100 ∧ r'.map Trace.cmds = r.map Trace.cmds := by
  obtain ⟨D, h1, h2⟩ := whole_ok
  obtain ⟨s, r, r1, r2, _⟩ := C111_whole wholeOptics whole_sound 4 wholeDms D wholeImat h1 (by simp [wholeDms])
    (by intro d hd; simp only [wholeDms, List.mem_cons, List.not_mem_nil, or_false] at hd; rcases hd with rfl | rfl <;> exact ⟨rfl, rfl⟩) h2 wholeCmat rfl (by decide) whole_undoes
    [1 / 2, 1 / 4] rfl 1 100 4 100 (by norm_num) true false (fun h => nomatch h) turb
  have h3 : (wholeOptics.calibrate 4 wholeDms).map (fun p => p.1.map fun d => (d.shapes.length, d.nElem)) = .ok [(2, 2), (1, 6)] := by decide +kernel
  rw [h1] at h3
  simp only [Except.map, Except.ok.injEq] at h3
  have hDl : D.length = 2 := by simpa using congrArg List.length h3
  obtain ⟨a, b, rfl⟩ := List.length_eq_two.mp hDl
  simp only [List.map_cons, List.map_nil, List.cons.injEq, Prod.mk.injEq, and_true] at h3
  obtain ⟨⟨p1, p2⟩, p3, p4⟩ := h3
  have hctl : (controls [a, b] [1 / 2, 1 / 4]).map DmCtl.nValid = actuators [a, b] := rfl
  obtain ⟨s', r', q1, q2, _⟩ := C140_loop C140_flip whole_sound whole_flip_ok (D := [a, b]) (by
      intro d hd
      simp only [List.mem_cons, List.not_mem_nil, or_false] at hd
      rcases hd with rfl | rfl
      · rw [p2]; rfl
      · rw [p4]; rfl) wholeCmat (by
      have : (actuators [a, b]).sum = 3 := by simp [actuators, p1, p3]
      rw [this]
      decide) 1 100 4 true false turb (fun i l a b => turb i l (5 - a) b) (fun i l a b _ _ => rfl) hctl (by
      intro f hf
      rw [List.eq_of_mem_replicate hf]
      exact hctl) r1
  exact ⟨[a, b], s, r, s', r', h1, r1, q1, r2, q2⟩

/-- A gradient sensor of two sub-apertures of 2 × 2 pixels, one beside the other, looking off axis. -/
example : ∃ x y : List ℚ, ((oneSensor 8 [1000] [] (gradWfs ⟨false, (1 / 1000, 0), (0, 0), 0, 4, 1, 8, 4⟩ 1 (fun _ _ => 1) [(0, 0), (0, 2)] 2 1)).plant fun _ _ a b => a * a + 3 * b).sense () 0 [] = .ok ((), x ++ y) ∧
    ((oneSensor 8 [1000] [] (gradWfs ⟨false, (0, 1 / 1000), (0, 0), 0, 4, 1, 8, 4⟩ 1 (fun _ _ => 1) [(0, 0), (2, 0)] 2 1)).plant fun _ _ a b => b * b + 3 * a).sense () 0 [] = .ok ((), y ++ x) ∧ x ≠ y := by
  refine ⟨[-3, -3], [-7, -7], ?_, ?_, ?_⟩ <;> decide +kernel

/-! ### Beams that fill the screen -/

/-- **C140 (no margin).**  If the beam fills the screen, its last sample is moved by a thousand-millionth of a pixel and its first is not (lineofsight.py:181): reversal of the axis is seen.  The axes can be exchanged all the same. -/
theorem C140_edge : Optics.Sound tightOptics ∧ AllOk .transpose tightOptics ∧ ∃ turb turb' : ℕ → ℕ → ℕ → ℕ → ℚ, TurnedTurb .flip tightOptics turb turb' ∧
    (tightOptics.plant turb).sense () 0 [] = .ok ((), [1 - 1 / 1000000000]) ∧ ((turnOptics .flip tightOptics).plant turb').sense () 0 [] = .ok ((), [1]) := by
  refine ⟨C138_no_margin.1, fun _ _ _ _ => trivial, fun _ _ a _ => a, fun _ _ a _ => 1 - a, ?_, by decide +kernel, by decide +kernel⟩
  intro i l a b ha _
  have ha : a < 2 := ha
  simp only [Turn.flip, tightOptics]
  rcases a with _ | _ | a
  · norm_num
  · norm_num
  · omega

/-- **C32 (upwards, to infinity).** A beam sent up to a source at infinity keeps its full width and stays as far from the line
of sight of the pupil as it was launched; both axes. -/
theorem C32_uplink_infinite (g : Los.Geom) (h : ℚ) (hu : g.up = true) (hs : g.scale ≠ 0) (hH : g.source = 0) :
    let (x1, x2, y1, y2) := Los.altitudeCoords g h
    x2 - x1 = g.diameter / g.scale ∧ y2 - y1 = g.diameter / g.scale ∧
    (x1 + x2) / 2 = g.scrn / 2 + (g.launch.1 + g.angle.1 * h) / g.scale ∧
    (y1 + y2) / 2 = g.scrn / 2 + (g.launch.2 + g.angle.2 * h) / g.scale := by
  simp only [Los.altitudeCoords, Los.edges, Los.footprint, hu, hH, if_true, ne_eq, not_true_eq_false, if_false]
  refine ⟨?_, ?_, ?_, ?_⟩ <;> field_simp <;> ring

/-- Such a beam. -/
example : ∃ g : Los.Geom, g.up = true ∧ g.scale ≠ 0 ∧ g.source = 0 ∧ g.launch = (3, -4) :=
  ⟨{ up := true, source := 0, angle := (1 / 10, 0), launch := (3, -4), diameter := 8, scale := 1 / 4, scrn := 64, nOut := 32 },
    rfl, by norm_num, rfl, rfl⟩

end Soapy.Props
