/-
Property theorems C154: noise in the measurements of the whole simulation.
-/
import Verif.Props.WholeExact

namespace Soapy.Props

open Soapy.Mirror Soapy.Interp Soapy.Los Soapy.Whole Soapy.Loop Soapy.Control

/-! ### Noise in several measurements -/

/-- Errors of `N` measurements in frames 0, …, `n - 1` (frame first, then measurement) over a finite probability space: each of mean zero, that of measurement `m` of variance `v m`, and uncorrelated between frames and between measurements. -/
def WhiteMeas {Ω : Type} [Fintype Ω] (Pr : Ω → ℚ) (err : Ω → ℕ → ℕ → ℚ) (v : ℕ → ℚ) (N n : ℕ) : Prop :=
  (∀ ω, 0 ≤ Pr ω) ∧ ∑ ω, Pr ω = 1 ∧ (∀ m < N, 0 ≤ v m) ∧ (∀ k < n, ∀ m < N, ∑ ω, Pr ω * err ω k m = 0) ∧
    ∀ k < n, ∀ l < n, ∀ m < N, ∀ m' < N, ∑ ω, Pr ω * (err ω k m * err ω l m') = if k = l ∧ m = m' then v m else 0

/-- What a row of weights makes of such errors is uncorrelated from frame to frame, of variance the sum of the squares of the weights times the variances. -/
theorem C154_white {Ω : Type} [Fintype Ω] (Pr : Ω → ℚ) (err : Ω → ℕ → ℕ → ℚ) (v : ℕ → ℚ) (N n : ℕ) (h : WhiteMeas Pr err v N n) (w : ℕ → ℚ) :
    White Pr (fun ω k => ∑ m ∈ Finset.range N, w m * err ω k m) (∑ m ∈ Finset.range N, w m ^ 2 * v m) n := by
  obtain ⟨h0, h1, hv, hm, hc⟩ := h
  have key : ∀ k < n, ∀ l < n, ∑ ω, Pr ω * ((∑ m ∈ Finset.range N, w m * err ω k m) * ∑ m ∈ Finset.range N, w m * err ω l m) = if k = l then ∑ m ∈ Finset.range N, w m ^ 2 * v m else 0 := by
    intro k hk l hl
    have e : ∀ ω, Pr ω * ((∑ m ∈ Finset.range N, w m * err ω k m) * ∑ m ∈ Finset.range N, w m * err ω l m) = ∑ m ∈ Finset.range N, ∑ m' ∈ Finset.range N, w m * w m' * (Pr ω * (err ω k m * err ω l m')) := by
      intro ω
      rw [Finset.sum_mul_sum, Finset.mul_sum]
      refine Finset.sum_congr rfl fun m _ => ?_
      rw [Finset.mul_sum]
      exact Finset.sum_congr rfl fun m' _ => by ring
    rw [Finset.sum_congr rfl fun ω _ => e ω, Finset.sum_comm]
    have e2 : ∀ m ∈ Finset.range N, ∑ ω, ∑ m' ∈ Finset.range N, w m * w m' * (Pr ω * (err ω k m * err ω l m')) = if k = l then w m ^ 2 * v m else 0 := by
      intro m hmN
      rw [Finset.mem_range] at hmN
      rw [Finset.sum_comm]
      have e3 : ∀ m' ∈ Finset.range N, ∑ ω, w m * w m' * (Pr ω * (err ω k m * err ω l m')) = if m = m' then (if k = l then w m ^ 2 * v m else 0) else 0 := by
        intro m' hm'
        rw [Finset.mem_range] at hm'
        rw [← Finset.mul_sum, hc k hk l hl m hmN m' hm']
        by_cases a : k = l <;> by_cases b : m = m'
        · subst b; simp only [a, and_self, if_true]; ring
        · simp [b]
        · simp [a]
        · simp [a]
      rw [Finset.sum_congr rfl e3, Finset.sum_ite_eq, if_pos (Finset.mem_range.mpr hmN)]
    rw [Finset.sum_congr rfl e2]
    by_cases a : k = l <;> simp [a]
  refine ⟨h0, h1, Finset.sum_nonneg fun m hmN => mul_nonneg (sq_nonneg _) (hv m (Finset.mem_range.mp hmN)), ?_, fun k hk => by simpa using key k hk k hk, fun k hk l hl hkl => by simpa [hkl] using key k hk l hl⟩
  intro k hk
  have e : ∀ ω, Pr ω * ∑ m ∈ Finset.range N, w m * err ω k m = ∑ m ∈ Finset.range N, w m * (Pr ω * err ω k m) := by
    intro ω
    rw [Finset.mul_sum]
    exact Finset.sum_congr rfl fun m _ => by ring
  dsimp only
  rw [Finset.sum_congr rfl fun ω _ => e ω, Finset.sum_comm]
  refine Finset.sum_eq_zero fun m hmN => ?_
  rw [← Finset.mul_sum, hm k hk m (Finset.mem_range.mp hmN), mul_zero]

/-- Such noise exists, for any number of measurements and frames. -/
theorem WhiteMeas.exists (N n : ℕ) : ∃ (Ω : Type) (_ : Fintype Ω) (Pr : Ω → ℚ) (err : Ω → ℕ → ℕ → ℚ), WhiteMeas Pr err (fun _ => 1) N n := by
  obtain ⟨Ω, _, Pr, b, h0, h1, _, hm, hv, hc⟩ := White.exists (n * N)
  have hlt : ∀ k < n, ∀ m < N, k * N + m < n * N := fun k hk m hm => by nlinarith
  refine ⟨Ω, inferInstance, Pr, fun ω k m => b ω (k * N + m), h0, h1, fun _ _ => zero_le_one, fun k hk m hm' => hm _ (hlt k hk m hm'), fun k hk l hl m hm1 m' hm2 => ?_⟩
  by_cases h : k = l ∧ m = m'
  · obtain ⟨rfl, rfl⟩ := h
    simpa using hv _ (hlt k hk m hm1)
  · rw [if_neg h]
    refine hc _ (hlt k hk m hm1) _ (hlt l hl m' hm2) fun e => h ?_
    have e1 : (k * N + m) / N = (l * N + m') / N := by rw [e]
    have e2 : (k * N + m) % N = (l * N + m') % N := by rw [e]
    have hN : 0 < N := by omega
    rw [Nat.mul_add_mod', Nat.mul_add_mod', Nat.mod_eq_of_lt hm1, Nat.mod_eq_of_lt hm2] at e2
    rw [Nat.mul_comm k, Nat.mul_comm l, Nat.mul_add_div hN, Nat.mul_add_div hN, Nat.div_eq_of_lt hm1, Nat.div_eq_of_lt hm2] at e1
    exact ⟨by omega, e2⟩

private theorem lag_split (d : ℕ) (g : ℚ) (a b : ℕ → ℚ) (n : ℕ) : lag d g a b n = lag d g a (fun _ => 0) n + lag d g (fun _ => 0) b n := by
  rw [C110_response d g a b, C110_response d g a fun _ => 0, C110_response d g (fun _ => 0) b]
  simp
  ring

private theorem lag_mean {Ω : Type} [Fintype Ω] (Pr : Ω → ℚ) (b : Ω → ℕ → ℚ) (d n : ℕ) (g : ℚ) (h : ∀ k < n - d, ∑ ω, Pr ω * b ω k = 0) : ∑ ω, Pr ω * lag d g (fun _ => 0) (b ω) n = 0 := by
  have e : ∀ ω, Pr ω * lag d g (fun _ => 0) (b ω) n = ∑ k ∈ Finset.range (n - d), -g * leftOver d g 1 (n - d - 1 - k) * (Pr ω * b ω k) := by
    intro ω
    rw [C110_response]
    simp only [zero_mul, sub_self, mul_zero, Finset.sum_const_zero, zero_add, zero_sub]
    rw [mul_neg, Finset.mul_sum, Finset.mul_sum, ← Finset.sum_neg_distrib]
    exact Finset.sum_congr rfl fun k _ => by ring
  rw [Finset.sum_congr rfl fun ω _ => e ω, Finset.sum_comm]
  refine Finset.sum_eq_zero fun k hk => ?_
  rw [← Finset.mul_sum, h k (Finset.mem_range.mp hk), mul_zero]

/-! ### The whole simulation -/

theorem noisy_sense (o : Optics) (ho : Optics.Sound o) (turb : ℕ → ℕ → ℕ → ℕ → ℚ) (err : ℕ → ℕ → ℚ) (i : ℕ) (corr : List Stack) :
    (o.noisyPlant turb err).sense () i corr = .ok ((), (List.range o.totalMeas).map fun m => senses o ((turb i, 0) - corr.sum) m + err i m) := by
  unfold Optics.noisyPlant
  dsimp only
  rw [sense_eq o ho]
  dsimp only
  congr 2
  refine List.ext_getElem (by simp) fun q h1 h2 => ?_
  simp

variable (o : Optics) (ho : Optics.Sound o) (totalActs : ℕ) (dms dms' : List Persist.Dm) (M : List (List ℚ)) (hcal : o.calibrate totalActs dms = .ok (dms', M))
    (hne : dms ≠ []) (hdms : ∀ d ∈ dms, d.shapes.length = d.nActs ∧ (o.scrn + d.nElem) % 2 = 0) (hkept : ∀ d ∈ dms', d.shapes ≠ [])
    (P : List (List ℚ)) (hrows : P.length = o.totalMeas) (hcols : ∀ r ∈ P, r.length = M.length) (hinv : Undoes P M)
    (gains : List ℚ) (hg : gains.length = dms.length) (d nIters nActs : ℕ) (hN : 1 ≤ nIters) (saveSlopes saveDm : Bool) (hstore : saveDm = true → nActs = M.length)

include ho hcal hne hdms hkept hrows hcols hinv hg hN hstore

/-- **C154 (whole).** Whatever numbers are added to the measurements in the loop, the run completes; every command is the one that follows what the control matrix reconstructs from the measurements without mirrors and is changed by what the control matrix makes of the numbers;
the measurements are the uncorrected ones minus the commands times the interaction matrix, plus the numbers. -/
theorem C154_whole (n : ℕ) (turb : ℕ → ℕ → ℕ → ℕ → ℚ) (err : ℕ → ℕ → ℚ) :
    ∃ s' ts, runLoop (o.sys dms' P d nIters saveSlopes saveDm) (o.noisyPlant turb err) (initial (o.sys dms' P d nIters saveSlopes saveDm) (controls dms' gains) o.totalMeas nActs ()) (List.replicate n (controls dms' gains)) = .ok (s', ts) ∧
      ts.length = n ∧ ∀ (i : ℕ) (t : Trace Stack), ts[i]? = some t →
        (∀ p, p < M.length → t.cmds[p]? =
          some (reconstructed P (o.uncorrected (turb i)) p - lag d (gainOf (controls dms' gains) p) (fun k => reconstructed P (o.uncorrected (turb k)) p) (fun k => ∑ m ∈ Finset.range o.totalMeas, (P.getD m []).getD p 0 * err k m) i)) ∧
        t.slopes = (List.range o.totalMeas).map fun m => (o.uncorrected (turb i)).getD m 0 - (∑ p ∈ Finset.range M.length, t.cmds.getD p 0 * (M.getD p []).getD m 0) + err i m := by
  obtain ⟨s', ts, h1, h2, h3⟩ := whole_any o ho totalActs dms dms' M hcal hne hdms hkept P hrows hcols hinv gains hg d nIters nActs n hN saveSlopes saveDm hstore turb (o.noisyPlant turb err) err (noisy_sense o ho turb err)
  exact ⟨s', ts, h1, h2, fun i t ht => ⟨(h3 i t ht).1, (h3 i t ht).2.1⟩⟩

/-- **C154 (superposition).** The run with noise and the run without: each command differs by the gain times the sum over the earlier frames of what is left of a step after the time since then times what the control matrix makes of the noise of that frame.
This does not depend on the turbulence. -/
theorem C154_superpose (n : ℕ) (turb : ℕ → ℕ → ℕ → ℕ → ℚ) (err : ℕ → ℕ → ℚ) :
    ∃ s' ts s₀ ts₀, runLoop (o.sys dms' P d nIters saveSlopes saveDm) (o.noisyPlant turb err) (initial (o.sys dms' P d nIters saveSlopes saveDm) (controls dms' gains) o.totalMeas nActs ()) (List.replicate n (controls dms' gains)) = .ok (s', ts) ∧
      runLoop (o.sys dms' P d nIters saveSlopes saveDm) (o.plant turb) (initial (o.sys dms' P d nIters saveSlopes saveDm) (controls dms' gains) o.totalMeas nActs ()) (List.replicate n (controls dms' gains)) = .ok (s₀, ts₀) ∧ ts.length = n ∧ ts₀.length = n ∧
      ∀ (i : ℕ) (t t₀ : Trace Stack), ts[i]? = some t → ts₀[i]? = some t₀ → ∀ p, p < M.length → ∃ x x₀, t.cmds[p]? = some x ∧ t₀.cmds[p]? = some x₀ ∧
        x = x₀ + gainOf (controls dms' gains) p * ∑ k ∈ Finset.range (i - d), leftOver d (gainOf (controls dms' gains) p) 1 (i - d - 1 - k) * ∑ m ∈ Finset.range o.totalMeas, (P.getD m []).getD p 0 * err k m := by
  obtain ⟨s', ts, r1, r2, r3⟩ := C154_whole o ho totalActs dms dms' M hcal hne hdms hkept P hrows hcols hinv gains hg d nIters nActs hN saveSlopes saveDm hstore n turb err
  obtain ⟨s₀, ts₀, q1, q2, q3⟩ := C111_whole o ho totalActs dms dms' M hcal hne hdms hkept P hrows hcols hinv gains hg d nIters nActs n hN saveSlopes saveDm hstore turb
  refine ⟨s', ts, s₀, ts₀, r1, q1, r2, q2, fun i t t₀ ht ht₀ p hp => ⟨_, _, (r3 i t ht).1 p hp, (q3 i t₀ ht₀).1 p hp, ?_⟩⟩
  rw [lag_split, C110_response d _ (fun _ => 0)]
  simp
  ring

/-- **C154 (error budget).** With noise in the measurements that is uncorrelated between frames and between measurements, of variance `v m` in measurement `m`: the mean over all draws of each command is the command of the run without noise, and its mean square distance from what the
control matrix reconstructs from the uncorrected measurements is the square of the lag of the run without noise plus the square of the gain, times the sum of the squares of what is left of a step, times the noise that the control matrix lets through. -/
theorem C154_budget {Ω : Type} [Fintype Ω] (Pr : Ω → ℚ) (err : Ω → ℕ → ℕ → ℚ) (v : ℕ → ℚ) (n : ℕ) (hw : WhiteMeas Pr err v o.totalMeas n) (turb : ℕ → ℕ → ℕ → ℕ → ℚ) :
    ∃ (s' : Ω → Loop.State Unit Stack) (ts : Ω → List (Trace Stack)) (s₀ : Loop.State Unit Stack) (ts₀ : List (Trace Stack)),
      (∀ ω, runLoop (o.sys dms' P d nIters saveSlopes saveDm) (o.noisyPlant turb (err ω)) (initial (o.sys dms' P d nIters saveSlopes saveDm) (controls dms' gains) o.totalMeas nActs ()) (List.replicate n (controls dms' gains)) = .ok (s' ω, ts ω) ∧ (ts ω).length = n) ∧
      runLoop (o.sys dms' P d nIters saveSlopes saveDm) (o.plant turb) (initial (o.sys dms' P d nIters saveSlopes saveDm) (controls dms' gains) o.totalMeas nActs ()) (List.replicate n (controls dms' gains)) = .ok (s₀, ts₀) ∧ ts₀.length = n ∧
      ∀ i < n, ∀ p < M.length, ∃ (x : Ω → ℚ) (x₀ : ℚ), (∀ ω, (ts ω)[i]?.bind (·.cmds[p]?) = some (x ω)) ∧ ts₀[i]?.bind (·.cmds[p]?) = some x₀ ∧
        ∑ ω, Pr ω * x ω = x₀ ∧
        ∑ ω, Pr ω * (x ω - reconstructed P (o.uncorrected (turb i)) p) ^ 2 = (x₀ - reconstructed P (o.uncorrected (turb i)) p) ^ 2 +
          gainOf (controls dms' gains) p ^ 2 * (∑ k ∈ Finset.range (i - d), leftOver d (gainOf (controls dms' gains) p) 1 k ^ 2) * ∑ m ∈ Finset.range o.totalMeas, (P.getD m []).getD p 0 ^ 2 * v m := by
  choose s' ts r1 r2 r3 using fun ω => C154_whole o ho totalActs dms dms' M hcal hne hdms hkept P hrows hcols hinv gains hg d nIters nActs hN saveSlopes saveDm hstore n turb (err ω)
  obtain ⟨s₀, ts₀, q1, q2, q3⟩ := C111_whole o ho totalActs dms dms' M hcal hne hdms hkept P hrows hcols hinv gains hg d nIters nActs n hN saveSlopes saveDm hstore turb
  refine ⟨s', ts, s₀, ts₀, fun ω => ⟨r1 ω, r2 ω⟩, q1, q2, fun i hi p hp => ?_⟩
  have get : ∀ (l : List (Trace Stack)), l.length = n → ∃ t, l[i]? = some t := fun l hl => ⟨l[i]'(by omega), List.getElem?_eq_getElem (by omega)⟩
  set g := gainOf (controls dms' gains) p with hgd
  set r : ℕ → ℚ := fun k => reconstructed P (o.uncorrected (turb k)) p with hr
  set b : Ω → ℕ → ℚ := fun ω k => ∑ m ∈ Finset.range o.totalMeas, (P.getD m []).getD p 0 * err ω k m with hb
  have hW : White Pr b (∑ m ∈ Finset.range o.totalMeas, (P.getD m []).getD p 0 ^ 2 * v m) (i - d) := by
    have hw' : WhiteMeas Pr err v o.totalMeas (i - d) := by
      obtain ⟨a1, a2, a3, a4, a5⟩ := hw
      exact ⟨a1, a2, a3, fun k hk => a4 k (by omega), fun k hk l hl => a5 k (by omega) l (by omega)⟩
    exact C154_white Pr err v o.totalMeas (i - d) hw' fun m => (P.getD m []).getD p 0
  have hmean : ∑ ω, Pr ω * lag d g (fun _ => 0) (b ω) i = 0 := lag_mean Pr b d i g hW.2.2.2.1
  have hvar := C110_noise_any Pr b _ d i g hW
  refine ⟨fun ω => r i - lag d g r (b ω) i, r i - lag d g r (fun _ => 0) i, fun ω => ?_, ?_, ?_, ?_⟩
  · obtain ⟨t, ht⟩ := get (ts ω) (r2 ω)
    rw [ht, Option.bind_some]
    exact (r3 ω i t ht).1 p hp
  · obtain ⟨t, ht⟩ := get ts₀ q2
    rw [ht, Option.bind_some]
    exact (q3 i t ht).1 p hp
  · have e : ∀ ω, Pr ω * (r i - lag d g r (b ω) i) = (r i - lag d g r (fun _ => 0) i) * Pr ω - Pr ω * lag d g (fun _ => 0) (b ω) i := by
      intro ω
      rw [lag_split d g r (b ω)]
      ring
    rw [Finset.sum_congr rfl fun ω _ => e ω, Finset.sum_sub_distrib, hmean, ← Finset.mul_sum, hw.2.1]
    ring
  · have e : ∀ ω, Pr ω * (r i - lag d g r (b ω) i - r i) ^ 2 = lag d g r (fun _ => 0) i ^ 2 * Pr ω + 2 * lag d g r (fun _ => 0) i * (Pr ω * lag d g (fun _ => 0) (b ω) i) + Pr ω * lag d g (fun _ => 0) (b ω) i ^ 2 := by
      intro ω
      rw [lag_split d g r (b ω)]
      ring
    dsimp only
    rw [show reconstructed P (o.uncorrected (turb i)) p = r i from rfl]
    rw [Finset.sum_congr rfl fun ω _ => e ω, Finset.sum_add_distrib, Finset.sum_add_distrib, ← Finset.mul_sum, ← Finset.mul_sum, hmean, hvar, hw.2.1]
    ring

omit ho hcal hne hdms hkept hrows hcols hinv hg hN hstore

/-- **C154 (only the gain and the control matrix).** The factor of the noise stays bounded, for runs of any length, exactly for the gains for which the loop is stable (and for gain zero, where it vanishes). -/
theorem C154_factor (d : ℕ) (g : ℚ) (hg : g ≠ 0) : (∃ K : ℚ, ∀ i, g ^ 2 * ∑ k ∈ Finset.range (i - d), leftOver d g 1 k ^ 2 ≤ K) ↔ StableGain d g := by
  rw [StableGain, ← C110_noise_exact d g hg]
  constructor
  · rintro ⟨K, hK⟩
    refine ⟨K, fun Ω _ Pr b σ2 n hw => ?_⟩
    rw [C110_noise_any Pr b σ2 d n g hw]
    exact mul_le_mul_of_nonneg_right (hK n) hw.2.2.1
  · rintro ⟨K, hK⟩
    refine ⟨K, fun i => ?_⟩
    obtain ⟨Ω, _, Pr, b, hw⟩ := White.exists (i - d)
    have := hK Ω _ Pr b 1 i hw
    rw [C110_noise_any Pr b 1 d i g hw] at this
    linarith

/-- **C154 (no delay).** Without delay the factor of the noise in frame `i` is `g / (2 - g) · (1 - (1 - g)^(2 i))`. -/
theorem C154_factor_zero (g : ℚ) (h2 : g ≠ 2) (i : ℕ) : g ^ 2 * ∑ k ∈ Finset.range (i - 0), leftOver 0 g 1 k ^ 2 = g / (2 - g) * (1 - (1 - g) ^ (2 * i)) := by
  have h2' : 2 - g ≠ 0 := fun h => h2 (by linarith)
  have e : ∀ k, leftOver 0 g 1 k = (1 - g) ^ k := by
    intro k
    induction k with
    | zero => rw [leftOver]; simp
    | succ n ih => rw [leftOver]; simp [ih]; ring
  simp only [e, Nat.sub_zero]
  induction i with
  | zero => simp
  | succ n ih =>
    rw [Finset.sum_range_succ, mul_add, ih]
    field_simp
    ring

/-- The simulation of the example of C111 with a delay of one frame and noise in its four measurements: the mean square error of the first command in frame 3. -/
example : ∃ (Ω : Type) (_ : Fintype Ω) (Pr : Ω → ℚ) (err : Ω → ℕ → ℕ → ℚ) (dms' : List Persist.Dm), wholeOptics.calibrate 4 wholeDms = .ok (dms', wholeImat) ∧ WhiteMeas Pr err (fun _ => 1) 4 4 ∧
    ∃ x : Ω → ℚ, (∀ ω, ∃ s' ts, runLoop (wholeOptics.sys dms' wholeCmat 1 100 true false) (wholeOptics.noisyPlant (fun _ l i _ => if l = 0 then 3 * i else 0) (err ω))
        (initial (wholeOptics.sys dms' wholeCmat 1 100 true false) (controls dms' [1 / 2, 1 / 2]) 4 4 ()) (List.replicate 4 (controls dms' [1 / 2, 1 / 2])) = .ok (s', ts) ∧ ts[3]?.bind (·.cmds[0]?) = some (x ω)) ∧
      ∑ ω, Pr ω * (x ω - 3) ^ 2 = 9 * leftOver 1 (1 / 2) 1 3 ^ 2 + 1 / 2 * ∑ m ∈ Finset.range 4, (wholeCmat.getD m []).getD 0 0 ^ 2 := by
  obtain ⟨dms', h1, h2⟩ := whole_ok
  have hd : ∀ d ∈ wholeDms, d.shapes.length = d.nActs ∧ (wholeOptics.scrn + d.nElem) % 2 = 0 := by
    intro d hd; simp only [wholeDms, List.mem_cons, List.not_mem_nil, or_false] at hd; rcases hd with rfl | rfl <;> exact ⟨rfl, rfl⟩
  obtain ⟨Ω, _, Pr, err, hw⟩ := WhiteMeas.exists 4 4
  have e : reconstructed wholeCmat (wholeOptics.uncorrected fun l i _ => if l = 0 then 3 * i else 0) 0 = 3 := by decide +kernel
  have hmem : gainOf (controls dms' [1 / 2, 1 / 2]) 0 ∈ [(1 / 2 : ℚ), 1 / 2] := gainOf_mem wholeOptics whole_sound 4 wholeDms dms' wholeImat h1 hd [1 / 2, 1 / 2] rfl 0 (by decide)
  have e1 : gainOf (controls dms' [1 / 2, 1 / 2]) 0 = 1 / 2 := by simpa using hmem
  refine ⟨Ω, inferInstance, Pr, err, dms', h1, hw, ?_⟩
  obtain ⟨s', ts, s₀, ts₀, r1, q1, q2, hb⟩ := C154_budget wholeOptics whole_sound 4 wholeDms dms' wholeImat h1 (by simp [wholeDms]) hd h2 wholeCmat rfl (by decide) whole_undoes
    [1 / 2, 1 / 2] rfl 1 100 4 (by norm_num) true false (fun h => nomatch h) Pr err (fun _ => 1) 4 hw (fun _ l i _ => if l = 0 then 3 * i else 0)
  obtain ⟨x, x₀, hx, hx₀, _, hsq⟩ := hb 3 (by norm_num) 0 (by decide)
  refine ⟨x, fun ω => ⟨s' ω, ts ω, (r1 ω).1, hx ω⟩, ?_⟩
  rw [e, e1] at hsq
  rw [hsq]
  obtain ⟨s₁, ts₁, p1, p2, p3⟩ := C111_whole wholeOptics whole_sound 4 wholeDms dms' wholeImat h1 (by simp [wholeDms]) hd h2 wholeCmat rfl (by decide) whole_undoes
    [1 / 2, 1 / 2] rfl 1 100 4 4 (by norm_num) true false (fun h => nomatch h) (fun _ l i _ => if l = 0 then 3 * i else 0)
  have hsame : ts₁ = ts₀ := by
    have := p1.symm.trans q1
    simp only [Except.ok.injEq, Prod.mk.injEq] at this
    exact this.2
  subst hsame
  obtain ⟨t, ht⟩ : ∃ t, ts₁[3]? = some t := ⟨ts₁[3]'(by omega), List.getElem?_eq_getElem (by omega)⟩
  have hc := (p3 3 t ht).1 0 (by decide)
  rw [ht, Option.bind_some, hc, lag_static, e, e1, Option.some.injEq] at hx₀
  rw [← hx₀]
  have hs : leftOver 1 (1 / 2) 3 3 = 3 * leftOver 1 (1 / 2) 1 3 := by norm_num [leftOver]
  have hk : ∑ k ∈ Finset.range (3 - 1), leftOver 1 (1 / 2) 1 k ^ 2 = 2 := by norm_num [Finset.sum_range_succ, leftOver]
  have ht4 : wholeOptics.totalMeas = 4 := by decide
  rw [hs, hk, ht4]
  simp only [mul_one]
  ring

end Soapy.Props
