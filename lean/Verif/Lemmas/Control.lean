import Verif.Model.Control
import Mathlib.Tactic.Ring
import Mathlib.Tactic.Linarith

namespace Soapy.Control

open Soapy.Vec

theorem newValues_length (d : DmCtl) (a u : List ℚ) (h : a.length = u.length) :
    (newValues d a u).length = a.length := by
  unfold newValues; split <;> simp [h]

/-- Blockwise form of the control law: one block per mirror. -/
def blockUpdate : List DmCtl → List (List ℚ) → List (List ℚ) → List (List ℚ)
  | d :: ds, a :: as, u :: us => newValues d a u :: blockUpdate ds as us
  | _, _, _ => []

/-- Block lists fit the mirrors. -/
def Fits : List DmCtl → List (List ℚ) → Prop
  | [], [] => True
  | d :: ds, a :: as => a.length = d.nValid ∧ Fits ds as
  | _, _ => False

theorem blockUpdate_fits (ds : List DmCtl) (as us : List (List ℚ)) (ha : Fits ds as)
    (hu : Fits ds us) : Fits ds (blockUpdate ds as us) := by
  induction ds generalizing as us with
  | nil => cases as <;> cases us <;> simp_all [Fits, blockUpdate]
  | cons d ds ih =>
    cases as with
    | nil => simp [Fits] at ha
    | cons a as =>
      cases us with
      | nil => simp [Fits] at hu
      | cons u us =>
        simp only [Fits] at ha hu
        simp only [blockUpdate, Fits]
        exact ⟨by rw [newValues_length d a u (by omega)]; exact ha.1, ih as us ha.2 hu.2⟩

theorem applyGain_blocks (ds : List DmCtl) (preA preU : List ℚ) (as us : List (List ℚ))
    (suf sufU : List ℚ)
    (hp : preA.length = preU.length) (ha : Fits ds as) (hu : Fits ds us) :
    applyGain ds preA.length (preA ++ as.flatten ++ suf) (preU ++ us.flatten ++ sufU) =
      .ok (preA ++ (blockUpdate ds as us).flatten ++ suf) := by
  induction ds generalizing preA preU as us with
  | nil =>
    cases as with
    | cons => simp [Fits] at ha
    | nil => simp [applyGain, blockUpdate]
  | cons d ds ih =>
    cases as with
    | nil => simp [Fits] at ha
    | cons a as =>
      cases us with
      | nil => simp [Fits] at hu
      | cons u us =>
        simp only [Fits] at ha hu
        obtain ⟨hal, ha⟩ := ha
        obtain ⟨hul, hu⟩ := hu
        simp only [List.flatten_cons, applyGain, blockUpdate]
        have e1 : preA ++ (a ++ as.flatten) ++ suf = preA ++ a ++ (as.flatten ++ suf) := by simp
        have e2 : preU ++ (u ++ us.flatten) ++ sufU = preU ++ u ++ (us.flatten ++ sufU) := by simp
        rw [e1, e2, ← hal, slice_append]
        have e3 : slice (preU ++ u ++ (us.flatten ++ sufU)) preA.length (preA.length + a.length) = u := by
          rw [hp, hal, ← hul, slice_append]
        rw [e3, if_pos (by omega), assign_append _ _ _ _
          (newValues_length d a u (by omega)).symm]
        dsimp only
        have hlen : preA.length + a.length = (preA ++ newValues d a u).length := by
          rw [List.length_append, newValues_length d a u (by omega)]
        rw [hlen]
        have e4 : preA ++ newValues d a u ++ (as.flatten ++ suf)
            = (preA ++ newValues d a u) ++ as.flatten ++ suf := by simp
        have e5 : preU ++ u ++ (us.flatten ++ sufU) = (preU ++ u) ++ us.flatten ++ sufU := by simp
        rw [e4, e5, ih (preA ++ newValues d a u) (preU ++ u) as us
          (by simp [newValues_length d a u (by omega : a.length = u.length)]; omega) ha hu]
        simp

theorem fits_length (ds : List DmCtl) (as : List (List ℚ)) (h : Fits ds as) :
    as.flatten.length = (ds.map DmCtl.nValid).sum := by
  induction ds generalizing as with
  | nil => cases as <;> simp_all [Fits]
  | cons d ds ih =>
    cases as with
    | nil => simp [Fits] at h
    | cons a as => simp only [Fits] at h; simp [ih as h.2, h.1]

/-- Cut a flat vector in blocks. -/
def cut : List DmCtl → List ℚ → List (List ℚ)
  | [], _ => []
  | d :: ds, v => v.take d.nValid :: cut ds (v.drop d.nValid)

theorem cut_fits (ds : List DmCtl) (v : List ℚ) (h : v.length = (ds.map DmCtl.nValid).sum) :
    Fits ds (cut ds v) ∧ (cut ds v).flatten = v := by
  induction ds generalizing v with
  | nil => simp at h; subst h; simp [cut, Fits]
  | cons d ds ih =>
    simp at h
    obtain ⟨h1, h2⟩ := ih (v.drop d.nValid) (by simp; omega)
    simp only [cut, Fits, List.flatten_cons, h2, List.take_append_drop, and_true]
    exact ⟨by simp; omega, h1⟩

theorem newValues_get (d : DmCtl) (a u : List ℚ) (j : ℕ) (x y : ℚ)
    (hx : a[j]? = some x) (hy : u[j]? = some y) :
    (newValues d a u)[j]? = some (if d.closed then x + d.gain * y else d.gain * y + (1 - d.gain) * x) := by
  unfold newValues
  split <;> simp [List.getElem?_zipWith, hx, hy]

theorem foldl_add_length (n : ℕ) (rows : List (List ℚ)) (v : List ℚ) (hv : v.length = n)
    (h : ∀ r ∈ rows, r.length = n) : (rows.foldl (List.zipWith (· + ·)) v).length = n := by
  induction rows generalizing v with
  | nil => simpa
  | cons r rows ih =>
    apply ih
    · simp [hv, h r (by simp)]
    · intro r' hr'; exact h r' (by simp [hr'])

theorem tdot_zero (nActs : ℕ) (cmat : List (List ℚ)) (h : ∀ r ∈ cmat, r.length = nActs) :
    tdot nActs cmat (zeros cmat.length) = .ok (zeros nActs) := by
  unfold tdot
  rw [if_pos (by simp [zeros])]
  congr 1
  have hz : List.zipWith (fun row x => row.map (x * ·)) cmat (zeros cmat.length)
      = List.replicate cmat.length (zeros nActs) := by
    apply List.ext_getElem
    · simp [zeros]
    · intro i h1 h2
      simp at h1
      have hr : cmat[i].length = nActs := h _ (List.getElem_mem _)
      simp [zeros, ← hr]
  rw [hz]
  have hadd : List.zipWith (· + ·) (zeros nActs) (zeros nActs) = zeros nActs := by
    simp [zeros]
  induction cmat.length with
  | zero => rfl
  | succ n ih => rw [List.replicate_succ, List.foldl_cons, hadd, ih]

end Soapy.Control

namespace Soapy.Control

open Soapy.Vec

/-- Position of the first command of mirror `k` in the flat vector. -/
def offset (ds : List DmCtl) (k : ℕ) : ℕ := ((ds.take k).map DmCtl.nValid).sum

theorem flatten_get (ds : List DmCtl) (as : List (List ℚ)) (h : Fits ds as) (k j : ℕ) (d : DmCtl)
    (hk : ds[k]? = some d) (hj : j < d.nValid) :
    ∃ a, as[k]? = some a ∧ a.length = d.nValid ∧ as.flatten[offset ds k + j]? = a[j]? := by
  induction ds generalizing as k with
  | nil => simp at hk
  | cons d' ds ih =>
    cases as with
    | nil => simp [Fits] at h
    | cons a as =>
      simp only [Fits] at h
      cases k with
      | zero =>
        simp at hk; subst hk
        refine ⟨a, by simp, h.1, ?_⟩
        simp only [offset, List.take_zero, List.map_nil, List.sum_nil, Nat.zero_add,
          List.flatten_cons]
        rw [List.getElem?_append_left (by omega)]
      | succ k =>
        simp at hk
        obtain ⟨b, hb, hbl, hbg⟩ := ih as h.2 k hk
        refine ⟨b, by simpa using hb, hbl, ?_⟩
        rw [← hbg, List.flatten_cons]
        have : offset (d' :: ds) (k + 1) = d'.nValid + offset ds k := by simp [offset]
        rw [this, List.getElem?_append_right (by omega)]
        congr 1; omega

theorem blockUpdate_get (ds : List DmCtl) (as us : List (List ℚ)) (ha : Fits ds as)
    (hu : Fits ds us) (k : ℕ) (d : DmCtl) (a u : List ℚ) (hk : ds[k]? = some d)
    (hak : as[k]? = some a) (huk : us[k]? = some u) :
    (blockUpdate ds as us)[k]? = some (newValues d a u) := by
  induction ds generalizing as us k with
  | nil => simp at hk
  | cons d' ds ih =>
    cases as with
    | nil => simp [Fits] at ha
    | cons a' as =>
      cases us with
      | nil => simp [Fits] at hu
      | cons u' us =>
        simp only [Fits] at ha hu
        cases k with
        | zero => simp_all [blockUpdate]
        | succ k =>
          simp at hk hak huk
          simpa [blockUpdate] using ih as us ha.2 hu.2 k hk hak huk

/-- The flat update. -/
def flatUpdate (ds : List DmCtl) (act u : List ℚ) : List ℚ :=
  (blockUpdate ds (cut ds act) (cut ds u)).flatten

theorem applyGain_flat (ds : List DmCtl) (act u : List ℚ)
    (ha : act.length = (ds.map DmCtl.nValid).sum) (hu : u.length = (ds.map DmCtl.nValid).sum) :
    applyGain ds 0 act u = .ok (flatUpdate ds act u) := by
  obtain ⟨h1, h2⟩ := cut_fits ds act ha
  obtain ⟨h3, h4⟩ := cut_fits ds u hu
  have := applyGain_blocks ds [] [] (cut ds act) (cut ds u) [] [] rfl h1 h3
  simpa [h2, h4, flatUpdate] using this

theorem flatUpdate_length (ds : List DmCtl) (act u : List ℚ)
    (ha : act.length = (ds.map DmCtl.nValid).sum) (hu : u.length = (ds.map DmCtl.nValid).sum) :
    (flatUpdate ds act u).length = (ds.map DmCtl.nValid).sum :=
  fits_length _ _ (blockUpdate_fits ds _ _ (cut_fits ds act ha).1 (cut_fits ds u hu).1)

/-- Elementwise law of the flat update. -/
theorem flatUpdate_get (ds : List DmCtl) (act u : List ℚ)
    (ha : act.length = (ds.map DmCtl.nValid).sum) (hu : u.length = (ds.map DmCtl.nValid).sum)
    (k j : ℕ) (d : DmCtl) (hk : ds[k]? = some d) (hj : j < d.nValid) (x y : ℚ)
    (hx : act[offset ds k + j]? = some x) (hy : u[offset ds k + j]? = some y) :
    (flatUpdate ds act u)[offset ds k + j]? =
      some (if d.closed then x + d.gain * y else d.gain * y + (1 - d.gain) * x) := by
  obtain ⟨h1, h2⟩ := cut_fits ds act ha
  obtain ⟨h3, h4⟩ := cut_fits ds u hu
  obtain ⟨a, ha1, ha2, ha3⟩ := flatten_get ds _ h1 k j d hk hj
  obtain ⟨b, hb1, hb2, hb3⟩ := flatten_get ds _ h3 k j d hk hj
  obtain ⟨c, hc1, hc2, hc3⟩ := flatten_get ds _ (blockUpdate_fits ds _ _ h1 h3) k j d hk hj
  rw [blockUpdate_get ds _ _ h1 h3 k d a b hk ha1 hb1] at hc1
  simp at hc1
  subst hc1
  rw [h2, hx] at ha3
  rw [h4, hy] at hb3
  rw [flatUpdate, hc3, newValues_get d a b j x y ha3.symm hb3.symm]

theorem offset_lt (ds : List DmCtl) (k j : ℕ) (d : DmCtl) (hk : ds[k]? = some d) (hj : j < d.nValid) :
    offset ds k + j < (ds.map DmCtl.nValid).sum := by
  induction ds generalizing k with
  | nil => simp at hk
  | cons d' ds ih =>
    cases k with
    | zero => simp at hk; subst hk; simp [offset]; omega
    | succ k =>
      simp at hk
      have := ih k hk
      simp [offset] at this ⊢; omega

/-- Command vector after `i` updates `u 0, …, u (i-1)` from `act`. -/
def iterUpdate (ds : List DmCtl) (act : List ℚ) (u : ℕ → List ℚ) : ℕ → List ℚ
  | 0 => act
  | i + 1 => flatUpdate ds (iterUpdate ds act u i) (u i)

theorem iterUpdate_length (ds : List DmCtl) (act : List ℚ) (u : ℕ → List ℚ)
    (ha : act.length = (ds.map DmCtl.nValid).sum) (n : ℕ)
    (hu : ∀ i, i < n → (u i).length = (ds.map DmCtl.nValid).sum) (i : ℕ) (hi : i ≤ n) :
    (iterUpdate ds act u i).length = (ds.map DmCtl.nValid).sum := by
  induction i with
  | zero => exact ha
  | succ i ih => exact flatUpdate_length ds _ _ (ih (by omega)) (hu i (by omega))

theorem iterUpdate_shift (ds : List DmCtl) (act : List ℚ) (u : ℕ → List ℚ) (i : ℕ) :
    iterUpdate ds (flatUpdate ds act (u 0)) (fun i => u (i + 1)) i = iterUpdate ds act u (i + 1) := by
  induction i with
  | zero => rfl
  | succ i ih => rw [iterUpdate, ih]; rfl

theorem run_some (ds : List DmCtl) (total : ℕ) (product : List ℚ → Except PyErr (List ℚ))
    (n : ℕ) (act : List ℚ) (m u : ℕ → List ℚ)
    (ha : act.length = (ds.map DmCtl.nValid).sum)
    (hp : ∀ i, i < n → product (m i) = .ok (u i))
    (hu : ∀ i, i < n → (u i).length = (ds.map DmCtl.nValid).sum) :
    runReconstruct ds total product ⟨some act⟩ ((List.range n).map m) =
      .ok (⟨some (iterUpdate ds act u n)⟩, (List.range n).map fun i => iterUpdate ds act u (i + 1)) := by
  induction n generalizing act m u with
  | zero => simp [runReconstruct, iterUpdate]
  | succ n ih =>
    rw [List.range_succ_eq_map]
    simp only [List.map_cons, List.map_map, runReconstruct, reconstruct, hp 0 (by omega)]
    rw [applyGain_flat ds act (u 0) ha (hu 0 (by omega))]
    dsimp only
    have := ih (flatUpdate ds act (u 0)) (fun i => m (i + 1)) (fun i => u (i + 1))
      (flatUpdate_length ds act (u 0) ha (hu 0 (by omega)))
      (fun i hi => hp (i + 1) (by omega)) (fun i hi => hu (i + 1) (by omega))
    have e : (List.map (m ∘ Nat.succ) (List.range n)) = (List.range n).map fun i => m (i + 1) := rfl
    rw [e, this]
    simp only [iterUpdate_shift]
    rfl

theorem run_none (ds : List DmCtl) (product : List ℚ → Except PyErr (List ℚ))
    (n : ℕ) (m u : ℕ → List ℚ)
    (hp : ∀ i, i < n → product (m i) = .ok (u i))
    (hu : ∀ i, i < n → (u i).length = (ds.map DmCtl.nValid).sum) :
    ∃ r, runReconstruct ds (ds.map DmCtl.nValid).sum product ⟨none⟩ ((List.range n).map m) =
      .ok (r, (List.range n).map fun i =>
        iterUpdate ds (zeros (ds.map DmCtl.nValid).sum) u (i + 1)) := by
  cases n with
  | zero => exact ⟨_, rfl⟩
  | succ n =>
    have h1 := run_some ds (ds.map DmCtl.nValid).sum product (n + 1)
      (zeros (ds.map DmCtl.nValid).sum) m u (by simp [zeros]) hp hu
    refine ⟨⟨some (iterUpdate ds (zeros (ds.map DmCtl.nValid).sum) u (n + 1))⟩, ?_⟩
    rw [← h1, List.range_succ_eq_map]
    rfl

end Soapy.Control
