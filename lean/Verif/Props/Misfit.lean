/-
Property theorems C164: a loop whose control matrix does not fit the system it controls.
-/
import Verif.Props.Slow
import Verif.Props.WholeNoise
import Verif.Props.WholeSci

namespace Soapy.Props

open Soapy.Loop Soapy.Control Soapy.Vec Soapy.Whole Soapy.Mirror Soapy.Los

/-- What is left of the components `a` of an aberration, frame by frame: every actuator answers after `d` frames by its gain times what comes back for it, which is `T r p` of what is left of every component `r`, and an error `b`. -/
def misfit (N d : ℕ) (g : ℕ → ℚ) (T : ℕ → ℕ → ℚ) (a b : ℕ → ℕ → ℚ) : ℕ → ℕ → ℚ
  | 0, p => a 0 p
  | n + 1, p => misfit N d g T a b n p + (a (n + 1) p - a n p) - if d ≤ n then g p * (∑ r ∈ Finset.range N, T r p * misfit N d g T a b (n - d) r + b (n - d) p) else 0
termination_by n => n
decreasing_by all_goals omega

theorem misfit_succ (N d : ℕ) (g : ℕ → ℚ) (T : ℕ → ℕ → ℚ) (a b : ℕ → ℕ → ℚ) (n p : ℕ) : misfit N d g T a b (n + 1) p =
    misfit N d g T a b n p + (a (n + 1) p - a n p) - if d ≤ n then g p * (∑ r ∈ Finset.range N, T r p * misfit N d g T a b (n - d) r + b (n - d) p) else 0 := by
  rw [misfit]

theorem misfit_sum (N d : ℕ) (g : ℕ → ℚ) (T : ℕ → ℕ → ℚ) (a b : ℕ → ℕ → ℚ) (m p : ℕ) :
    misfit N d g T a b m p = a m p - ∑ t ∈ Finset.range (m - d), g p * (∑ r ∈ Finset.range N, T r p * misfit N d g T a b t r + b t p) := by
  induction m with
  | zero => rw [misfit]; simp
  | succ m ih =>
    rw [misfit_succ, ih]
    by_cases h : d ≤ m
    · rw [if_pos h, show m + 1 - d = (m - d) + 1 by omega, Finset.sum_range_succ]
      ring
    · rw [if_neg h, show m + 1 - d = 0 by omega, show m - d = 0 by omega]
      simp

section

variable {V : Type} [AddCommGroup V] [Module ℚ V]

/-- **C164 (the loop).** Closed-loop mirrors with linear surfaces, a linear sensor, any control matrix: with `T p q` what the control matrix makes of a unit poke of actuator `p` for actuator `q`, the run completes and every command is the component of the aberration less `misfit`. -/
theorem C164_loop (sys : Sys V) (pl : Plant Unit V) (dms : List DmCtl) (hne : dms ≠ []) (hclosed : ∀ m ∈ dms, m.closed = true)
    (nMeas nActs d n : ℕ) (hd : sys.loopDelay = d) (hN : 1 ≤ sys.nIters) (hstore : sys.saveDmCommands = true → nActs = nCommands dms)
    (shape : ℕ → V) (S : V →ₗ[ℚ] (ℕ → ℚ)) (φ ψ : ℕ → V) (a err : ℕ → ℕ → ℚ) (gain : ℕ → ℚ)
    (hsurf : ∀ (k : ℕ) (m : DmCtl), dms[k]? = some m → ∀ c : List ℚ, c.length = m.nValid →
      sys.surface k c = .ok (∑ j ∈ Finset.range m.nValid, c.getD j 0 • shape (firstCommand dms k + j)))
    (hgain : ∀ (k : ℕ) (m : DmCtl), dms[k]? = some m → ∀ j, j < m.nValid → gain (firstCommand dms k + j) = m.gain)
    (hsense : ∀ i corr, pl.sense () i corr = .ok ((), (List.range nMeas).map fun m => S (φ i - corr.sum) m + err i m))
    (cmat : List (List ℚ)) (hrows : cmat.length = nMeas) (hcols : ∀ r ∈ cmat, r.length = nCommands dms)
    (hprod : sys.product = tdot (nCommands dms) cmat) (T : ℕ → ℕ → ℚ)
    (hT : ∀ p q, p < nCommands dms → q < nCommands dms → ∑ m ∈ Finset.range nMeas, (-(S (0 - shape p)) m) * (cmat.getD m []).getD q 0 = T p q)
    (hφ : ∀ i, φ i = ψ i + ∑ p ∈ Finset.range (nCommands dms), a i p • shape p) :
    ∃ s' ts, runLoop sys pl (initial sys dms nMeas nActs ()) (List.replicate n dms) = .ok (s', ts) ∧ ts.length = n ∧
      ∀ (i : ℕ) (t : Trace V), ts[i]? = some t → ∀ p, p < nCommands dms → t.cmds[p]? =
        some (a i p - misfit (nCommands dms) d gain T a (fun k p => ∑ m ∈ Finset.range nMeas, (cmat.getD m []).getD p 0 * (S (ψ k) m + err k m)) i p) := by
  set nC := nCommands dms with hnC
  obtain ⟨s', ts, hrun⟩ := C16_run_completes sys pl dms nMeas nActs d () (List.replicate n dms) (fun c hc => by rw [List.eq_of_mem_replicate hc])
    (fun k m hk c hc => ⟨_, hsurf k m hk c hc⟩)
    (fun m hm => by
      obtain ⟨c, e1, e2, _⟩ := tdot_get nC cmat m (by rw [hrows, hm]) hcols
      exact ⟨c, by rw [hprod]; exact e1, e2⟩)
    (fun x i c _ => ⟨(), _, hsense i c, by simp⟩) hN hd hstore
  obtain ⟨hlen, _⟩ := C16_who_sees_what sys pl dms nMeas nActs n () s' ts hrun
  have hslopes := run_slopes_at sys pl (fun i c => (List.range nMeas).map fun m => S (φ i - c.sum) m + err i m) hsense dms n _ s' ts hrun
  simp only [initial, Nat.zero_add] at hslopes
  have hcl := closed_run sys pl dms hne hclosed nMeas nActs d n () hd shape gain hsurf hgain cmat hrows hcols hprod s' ts hrun (by
    intro t ht
    obtain ⟨i, hi, e⟩ := List.mem_iff_getElem.mp ht
    rw [hslopes i t (by rw [← e]; exact List.getElem?_eq_getElem hi)]
    simp)
  refine ⟨s', ts, hrun, hlen, ?_⟩
  intro i
  induction i using Nat.strong_induction_on with
  | _ i ih =>
    intro t ht p hp
    rw [(hcl i t ht).1 p hp]
    rw [misfit_sum]
    congr 1
    rw [sub_sub_cancel]
    apply Finset.sum_congr rfl
    intro q hq
    congr 1
    have hq' : q < i - d := Finset.mem_range.mp hq
    have hi : i < ts.length := (List.getElem?_eq_some_iff.mp ht).1
    have hqt : ts[q]? = some ts[q] := List.getElem?_eq_getElem (by omega)
    have hsum := (hcl q _ hqt).2
    have hc : ∀ r, r < nC → (ts[q]).cmds.getD r 0 = a q r - misfit nC d gain T a (fun k p => ∑ m ∈ Finset.range nMeas, (cmat.getD m []).getD p 0 * (S (ψ k) m + err k m)) q r := by
      intro r hr
      rw [List.getD_eq_getElem?_getD, ih q (by omega) _ hqt r hr, Option.getD_some]
    rw [hqt, Option.map_some, Option.getD_some, hslopes q _ hqt, hsum]
    have hphi : φ q - ∑ r ∈ Finset.range nC, (ts[q]).cmds.getD r 0 • shape r = ψ q + ∑ r ∈ Finset.range nC, misfit nC d gain T a (fun k p => ∑ m ∈ Finset.range nMeas, (cmat.getD m []).getD p 0 * (S (ψ k) m + err k m)) q r • shape r := by
      rw [hφ q, add_sub_assoc, ← Finset.sum_sub_distrib]
      congr 1
      apply Finset.sum_congr rfl
      intro r hr
      rw [← sub_smul, hc r (Finset.mem_range.mp hr), sub_sub_cancel]
    rw [hphi]
    set R := misfit nC d gain T a (fun k p => ∑ m ∈ Finset.range nMeas, (cmat.getD m []).getD p 0 * (S (ψ k) m + err k m)) q with hR
    have hm : ∀ m ∈ Finset.range nMeas, (cmat.getD m []).getD p 0 * ((List.range nMeas).map fun m => S (ψ q + ∑ r ∈ Finset.range nC, R r • shape r) m + err q m).getD m 0 =
        (∑ r ∈ Finset.range nC, R r * ((-(S (0 - shape r)) m) * (cmat.getD m []).getD p 0)) + (cmat.getD m []).getD p 0 * (S (ψ q) m + err q m) := by
      intro m hm
      have hm' := Finset.mem_range.mp hm
      have e : ((List.range nMeas).map fun m => S (ψ q + ∑ r ∈ Finset.range nC, R r • shape r) m + err q m).getD m 0 = S (ψ q + ∑ r ∈ Finset.range nC, R r • shape r) m + err q m := by
        rw [List.getD_eq_getElem?_getD, List.getElem?_map, List.getElem?_range hm', Option.map_some, Option.getD_some]
      rw [e, map_add, map_sum]
      simp only [map_smul, Pi.add_apply, Finset.sum_apply, Pi.smul_apply, smul_eq_mul, zero_sub, map_neg, Pi.neg_apply, neg_neg]
      rw [show ∑ r ∈ Finset.range nC, R r * (S (shape r) m * (cmat.getD m []).getD p 0) = (cmat.getD m []).getD p 0 * ∑ r ∈ Finset.range nC, R r * S (shape r) m by
        rw [Finset.mul_sum]
        apply Finset.sum_congr rfl
        intro r _
        ring]
      ring
    rw [Finset.sum_congr rfl hm, Finset.sum_add_distrib, Finset.sum_comm]
    congr 1
    apply Finset.sum_congr rfl
    intro r hr
    rw [← Finset.mul_sum, hT r p (Finset.mem_range.mp hr) hp]
    ring

end

theorem come_back (N : ℕ) (T : ℕ → ℕ → ℚ) (p : ℕ) (hp : p < N) (x : ℕ → ℚ) :
    ∑ r ∈ Finset.range N, T r p * x r = x p + ∑ r ∈ Finset.range N, (T r p - if r = p then 1 else 0) * x r := by
  have : ∑ r ∈ Finset.range N, (if r = p then (1 : ℚ) else 0) * x r = x p := by
    simp only [ite_mul, one_mul, zero_mul]
    rw [Finset.sum_ite_eq' (Finset.range N) p]
    rw [if_pos (Finset.mem_range.mpr hp)]
  simp only [sub_mul]
  rw [Finset.sum_sub_distrib, this]
  ring

theorem misfit_error (N : ℕ) (T : ℕ → ℕ → ℚ) (ε M : ℚ) (p : ℕ) (hε : ∑ r ∈ Finset.range N, |T r p - if r = p then 1 else 0| ≤ ε) (x : ℕ → ℚ) (hM : 0 ≤ M)
    (hx : ∀ r < N, |x r| ≤ M) : |∑ r ∈ Finset.range N, (T r p - if r = p then 1 else 0) * x r| ≤ ε * M := by
  calc |∑ r ∈ Finset.range N, (T r p - if r = p then 1 else 0) * x r| ≤ ∑ r ∈ Finset.range N, |(T r p - if r = p then 1 else 0) * x r| := Finset.abs_sum_le_sum_abs _ _
    _ ≤ ∑ r ∈ Finset.range N, |T r p - if r = p then 1 else 0| * M := by
      apply Finset.sum_le_sum
      intro r hr
      rw [abs_mul]
      exact mul_le_mul_of_nonneg_left (hx r (Finset.mem_range.mp hr)) (abs_nonneg _)
    _ = (∑ r ∈ Finset.range N, |T r p - if r = p then 1 else 0|) * M := by rw [Finset.sum_mul]
    _ ≤ ε * M := mul_le_mul_of_nonneg_right hε hM

/-- One frame: what is left shrinks by the factor `1 - g (1 - ε - g d (1 + ε))`, but for changes and errors. -/
theorem misfit_step (N d : ℕ) (g : ℕ → ℚ) (T : ℕ → ℕ → ℚ) (a b : ℕ → ℕ → ℚ) (ε δ β M : ℚ) (p : ℕ) (hp : p < N) (h0 : 0 < g p) (h1 : g p ≤ 1)
    (hε : ∑ r ∈ Finset.range N, |T r p - if r = p then 1 else 0| ≤ ε) (ha : ∀ n, |a (n + 1) p - a n p| ≤ δ) (hb : ∀ n, |b n p| ≤ β) (hM : 0 ≤ M) (n : ℕ) (hn : d ≤ n)
    (hw : ∀ k, n - 2 * d ≤ k → k ≤ n → ∀ r < N, |misfit N d g T a b k r| ≤ M) :
    |misfit N d g T a b (n + 1) p| ≤ (1 - g p * (1 - ε - g p * d * (1 + ε))) * M + (1 + g p * d) * (δ + g p * β) := by
  set R := misfit N d g T a b with hR
  have hδ : 0 ≤ δ := (abs_nonneg _).trans (ha 0)
  have hβ : 0 ≤ β := (abs_nonneg _).trans (hb 0)
  have hε0 : 0 ≤ ε := le_trans (Finset.sum_nonneg fun _ _ => abs_nonneg _) hε
  set L := δ + g p * ((1 + ε) * M + β) with hL
  have hback : ∀ k, n - 2 * d ≤ k → k ≤ n → |∑ r ∈ Finset.range N, T r p * R k r| ≤ (1 + ε) * M := by
    intro k k1 k2
    rw [come_back N T p hp]
    have := misfit_error N T ε M p hε (R k) hM (hw k k1 k2)
    have h2 := hw k k1 k2 p hp
    calc _ ≤ |R k p| + |∑ r ∈ Finset.range N, (T r p - if r = p then 1 else 0) * R k r| := abs_add_le _ _
      _ ≤ M + ε * M := add_le_add h2 this
      _ = (1 + ε) * M := by ring
  have hdiff : ∀ m, n - d ≤ m → m < n → |R (m + 1) p - R m p| ≤ L := by
    intro m m1 m2
    rw [hR, misfit_succ, ← hR]
    have e : ∀ x : ℚ, R m p + (a (m + 1) p - a m p) - x - R m p = (a (m + 1) p - a m p) - x := fun x => by ring
    rw [e]
    have hA := ha m
    by_cases hdm : d ≤ m
    · rw [if_pos hdm]
      have hB := hback (m - d) (by omega) (by omega)
      have hb' := hb (m - d)
      have hS : |g p * (∑ r ∈ Finset.range N, T r p * R (m - d) r + b (m - d) p)| ≤ g p * ((1 + ε) * M + β) := by
        rw [abs_mul, abs_of_pos h0]
        exact mul_le_mul_of_nonneg_left ((abs_add_le _ _).trans (add_le_add hB hb')) h0.le
      calc _ ≤ |a (m + 1) p - a m p| + |g p * (∑ r ∈ Finset.range N, T r p * R (m - d) r + b (m - d) p)| := abs_sub _ _
        _ ≤ L := by rw [hL]; exact add_le_add hA hS
    · rw [if_neg hdm, sub_zero]
      have : 0 ≤ g p * ((1 + ε) * M + β) := by positivity
      rw [hL]; linarith
  have hacc : ∀ j, j ≤ d → |R (n - d + j) p - R (n - d) p| ≤ j * L := by
    intro j
    induction j with
    | zero => intro _; simp
    | succ j ih =>
      intro hj
      have h1 := ih (by omega)
      have h2 := hdiff (n - d + j) (by omega) (by omega)
      rw [show n - d + (j + 1) = n - d + j + 1 by ring]
      have : R (n - d + j + 1) p - R (n - d) p = (R (n - d + j + 1) p - R (n - d + j) p) + (R (n - d + j) p - R (n - d) p) := by ring
      rw [this]
      push_cast
      calc _ ≤ _ := abs_add_le _ _
        _ ≤ L + j * L := add_le_add h2 h1
        _ = _ := by ring
  have hd' := hacc d le_rfl
  rw [Nat.sub_add_cancel hn] at hd'
  have hE := misfit_error N T ε M p hε (R (n - d)) hM (hw (n - d) (by omega) (by omega))
  have hRn := hw n (by omega) le_rfl p hp
  have hA := ha n
  have hB := hb (n - d)
  rw [hR, misfit_succ, ← hR, if_pos hn, come_back N T p hp]
  set E := ∑ r ∈ Finset.range N, (T r p - if r = p then 1 else 0) * R (n - d) r with hEdef
  have e : R n p + (a (n + 1) p - a n p) - g p * (R (n - d) p + E + b (n - d) p) =
      (1 - g p) * R n p + g p * (R n p - R (n - d) p) - g p * E - g p * b (n - d) p + (a (n + 1) p - a n p) := by ring
  rw [e]
  have q1 : |(1 - g p) * R n p| ≤ (1 - g p) * M := by
    rw [abs_mul, abs_of_nonneg (by linarith)]
    exact mul_le_mul_of_nonneg_left hRn (by linarith)
  have q2 : |g p * (R n p - R (n - d) p)| ≤ g p * (d * L) := by
    rw [abs_mul, abs_of_pos h0]; exact mul_le_mul_of_nonneg_left hd' h0.le
  have q3 : |g p * E| ≤ g p * (ε * M) := by
    rw [abs_mul, abs_of_pos h0]; exact mul_le_mul_of_nonneg_left hE h0.le
  have q4 : |g p * b (n - d) p| ≤ g p * β := by
    rw [abs_mul, abs_of_pos h0]; exact mul_le_mul_of_nonneg_left hB h0.le
  rw [abs_le] at q1 q2 q3 q4 hA ⊢
  have tot : (1 - g p) * M + g p * (d * L) + g p * (ε * M) + g p * β + δ = (1 - g p * (1 - ε - g p * d * (1 + ε))) * M + (1 + g p * d) * (δ + g p * β) := by
    rw [hL]; ring
  rw [← tot]
  constructor <;> linarith [q1.1, q1.2, q2.1, q2.2, q3.1, q3.2, q4.1, q4.2, hA.1, hA.2]

/-- **C164 (bounded).** If for every actuator the control matrix is off by at most `ε` in the sum (of what should come back and does not, and of what should not and does), `ε + g d (1 + ε) < 1`, and the aberration changes by at most `δ` per frame and errors are at most `β`, what is
left falls geometrically below `K` and stays there. -/
theorem C164_bounded (N d : ℕ) (g : ℕ → ℚ) (T : ℕ → ℕ → ℚ) (a b : ℕ → ℕ → ℚ) (ε δ β ρ K A : ℚ) (h0 : ∀ p < N, 0 < g p) (h1 : ∀ p < N, g p ≤ 1)
    (hε : ∀ p < N, ∑ r ∈ Finset.range N, |T r p - if r = p then 1 else 0| ≤ ε) (ha : ∀ n, ∀ p < N, |a (n + 1) p - a n p| ≤ δ) (hb : ∀ n, ∀ p < N, |b n p| ≤ β) (hA : ∀ p < N, |a 0 p| ≤ A)
    (hρ : ∀ p < N, 1 - g p * (1 - ε - g p * d * (1 + ε)) ≤ ρ) (hρ1 : ρ < 1)
    (hK : ∀ p < N, (1 + g p * d) * (δ + g p * β) ≤ g p * (1 - ε - g p * d * (1 + ε)) * K) (q n : ℕ) (hq : q * (2 * d + 1) + d ≤ n) (p : ℕ) (hp : p < N) :
    |misfit N d g T a b n p| ≤ ρ ^ q * (A + d * δ) + K := by
  have hδ : 0 ≤ δ := (abs_nonneg _).trans (ha 0 p hp)
  have hβ : 0 ≤ β := (abs_nonneg _).trans (hb 0 p hp)
  have hA0 : 0 ≤ A := (abs_nonneg _).trans (hA p hp)
  have hε0 : 0 ≤ ε := le_trans (Finset.sum_nonneg fun _ _ => abs_nonneg _) (hε p hp)
  have hfac : ∀ r < N, 0 < g r * (1 - ε - g r * d * (1 + ε)) := fun r hr => by linarith [hρ r hr]
  have hfac1 : ∀ r < N, g r * (1 - ε - g r * d * (1 + ε)) ≤ 1 := by
    intro r hr
    have a1 : 0 ≤ g r * d * (1 + ε) := by have := (h0 r hr).le; positivity
    have a2 := h0 r hr
    have a3 := h1 r hr
    nlinarith
  have hρ0 : 0 ≤ ρ := by linarith [hρ p hp, hfac1 p hp]
  have hK0 : 0 ≤ K := by
    have h2 : 0 ≤ (1 + g p * d) * (δ + g p * β) := by have := (h0 p hp).le; positivity
    have h3 := hK p hp
    by_contra hneg
    have := mul_neg_of_pos_of_neg (hfac p hp) (not_le.mp hneg)
    linarith
  set M₀ := A + d * δ with hM
  have hM0 : 0 ≤ M₀ := by positivity
  have step : ∀ (X : ℚ), 0 ≤ X → ∀ n, d ≤ n → (∀ k, n - 2 * d ≤ k → k ≤ n → ∀ r < N, |misfit N d g T a b k r| ≤ X + K) → ∀ r < N, |misfit N d g T a b (n + 1) r| ≤ ρ * X + K := by
    intro X hX n hn hw r hr
    have := misfit_step N d g T a b ε δ β (X + K) r hr (h0 r hr) (h1 r hr) (hε r hr) (fun n => ha n r hr) (fun n => hb n r hr) (by positivity) n hn hw
    have k1 := hK r hr
    have k2 := mul_le_mul_of_nonneg_right (hρ r hr) hX
    nlinarith
  have early : ∀ n, n ≤ d → ∀ r < N, |misfit N d g T a b n r| ≤ A + n * δ := by
    intro n
    induction n with
    | zero => intro _ r hr; rw [misfit]; simpa using hA r hr
    | succ n ih =>
      intro hn r hr
      rw [misfit_succ, if_neg (by omega), sub_zero]
      have i1 := ih (by omega) r hr
      have i2 := ha n r hr
      push_cast
      calc _ ≤ _ := abs_add_le _ _
        _ ≤ (A + n * δ) + δ := add_le_add i1 i2
        _ = _ := by ring
  have all0 : ∀ n, ∀ r < N, |misfit N d g T a b n r| ≤ M₀ + K := by
    intro n
    induction n using Nat.strong_induction_on with
    | _ n ih =>
      intro r hr
      by_cases hn : n ≤ d
      · have e := early n hn r hr
        have : (n : ℚ) * δ ≤ d * δ := mul_le_mul_of_nonneg_right (by exact_mod_cast hn) hδ
        rw [hM]; linarith
      · obtain ⟨m, rfl⟩ : ∃ m, n = m + 1 := ⟨n - 1, by omega⟩
        have := step M₀ hM0 m (by omega) (fun k _ hk r hr => ih k (by omega) r hr) r hr
        have : ρ * M₀ ≤ 1 * M₀ := mul_le_mul_of_nonneg_right hρ1.le hM0
        linarith
  have main : ∀ q n, q * (2 * d + 1) + d ≤ n → ∀ r < N, |misfit N d g T a b n r| ≤ ρ ^ q * M₀ + K := by
    intro q
    induction q with
    | zero => intro n _ r hr; rw [pow_zero, one_mul]; exact all0 n r hr
    | succ q ih =>
      intro n hn r hr
      have hn' : q * (2 * d + 1) + (2 * d + 1) + d ≤ n := by rw [← Nat.succ_mul]; exact hn
      obtain ⟨m, rfl⟩ : ∃ m, n = m + 1 := ⟨n - 1, by omega⟩
      have := step (ρ ^ q * M₀) (mul_nonneg (pow_nonneg hρ0 q) hM0) m (by omega) (fun k hk _ r hr => ih k (by omega) r hr) r hr
      rw [pow_succ']
      linarith [mul_assoc ρ (ρ ^ q) M₀]
  exact main q n hq p hp

theorem below_one (N : ℕ) (f : ℕ → ℚ) (h : ∀ p < N, f p < 1) : ∃ ρ, ρ < 1 ∧ ∀ p < N, f p ≤ ρ := by
  induction N with
  | zero => exact ⟨0, by norm_num, fun p hp => absurd hp (Nat.not_lt_zero p)⟩
  | succ N ih =>
    obtain ⟨ρ, r1, r2⟩ := ih fun p hp => h p (by omega)
    refine ⟨max ρ (f N), max_lt r1 (h N (by omega)), ?_⟩
    intro p hp
    rcases Nat.lt_succ_iff_lt_or_eq.mp hp with hp | rfl
    · exact (r2 p hp).trans (le_max_left _ _)
    · exact le_max_right _ _

/-- **C164 (converges).** A control matrix that is off by less than the whole (`ε < 1`) still removes every still aberration that the mirrors can make, without delay for every gain up to one and with delay for gains with `ε + g d (1 + ε) < 1`. -/
theorem C164_converges (N d : ℕ) (g : ℕ → ℚ) (T : ℕ → ℕ → ℚ) (a : ℕ → ℚ) (ε : ℚ) (h0 : ∀ p < N, 0 < g p) (h1 : ∀ p < N, g p ≤ 1)
    (hε : ∀ p < N, ∑ r ∈ Finset.range N, |T r p - if r = p then 1 else 0| ≤ ε) (hd : ∀ p < N, ε + g p * d * (1 + ε) < 1) (p : ℕ) (hp : p < N) :
    Settles fun n => misfit N d g T (fun _ => a) (fun _ _ => 0) n p := by
  obtain ⟨ρ, r1, r2⟩ := below_one N (fun p => 1 - g p * (1 - ε - g p * d * (1 + ε))) (fun p hp => by
    have : 0 < g p * (1 - ε - g p * d * (1 + ε)) := mul_pos (h0 p hp) (by linarith [hd p hp])
    linarith)
  have hρ0 : 0 ≤ ρ := by
    have hε0 : 0 ≤ ε := le_trans (Finset.sum_nonneg fun _ _ => abs_nonneg _) (hε p hp)
    have a1 : 0 ≤ g p * d * (1 + ε) := by have := (h0 p hp).le; positivity
    have a2 := h0 p hp
    have a3 := h1 p hp
    have := r2 p hp
    nlinarith
  have hA : ∀ p < N, |a p| ≤ ∑ r ∈ Finset.range N, |a r| := fun p hp => Finset.single_le_sum (f := fun r => |a r|) (fun _ _ => abs_nonneg _) (Finset.mem_range.mpr hp)
  intro e he
  obtain ⟨Q, hQ⟩ := pow_small ρ (∑ r ∈ Finset.range N, |a r|) e hρ0 r1 he
  refine ⟨Q * (2 * d + 1) + d, fun n hn => ?_⟩
  have := C164_bounded N d g T (fun _ => a) (fun _ _ => 0) ε 0 0 ρ 0 (∑ r ∈ Finset.range N, |a r|) h0 h1 hε (fun n p _ => by simp) (fun n p _ => by simp) hA r2 r1
    (fun p _ => by simp) Q n hn p hp
  have q := hQ Q le_rfl
  simp only [mul_zero, add_zero] at this
  linarith

/-- **C164 (a wrong sensitivity).** If the sensor answers `γ` times what it did at calibration, the loop is that of C110 with `γ` times the gain and errors divided by `γ`, whatever the turbulence and the errors. -/
theorem C164_gain (N d : ℕ) (g : ℕ → ℚ) (γ : ℚ) (hγ : γ ≠ 0) (a b : ℕ → ℕ → ℚ) (p : ℕ) (hp : p < N) (n : ℕ) :
    misfit N d g (fun r q => if r = q then γ else 0) a b n p = lag d (g p * γ) (fun k => a k p) (fun k => b k p / γ) n := by
  induction n using Nat.strong_induction_on with
  | _ n ih =>
    cases n with
    | zero => rw [misfit, lag]
    | succ n =>
      rw [misfit_succ, lag, ih n (by omega)]
      by_cases h : d ≤ n
      · rw [if_pos h, if_pos h]
        have : ∑ r ∈ Finset.range N, (if r = p then γ else 0) * misfit N d g (fun r q => if r = q then γ else 0) a b (n - d) r = γ * lag d (g p * γ) (fun k => a k p) (fun k => b k p / γ) (n - d) := by
          simp only [ite_mul, zero_mul]
          rw [Finset.sum_ite_eq' (Finset.range N) p, if_pos (Finset.mem_range.mpr hp), ih (n - d) (by omega)]
        rw [this]
        field_simp
      · rw [if_neg h, if_neg h]

theorem lag_still (d : ℕ) (g x : ℚ) (n : ℕ) : lag d g (fun _ => x) (fun _ => 0) n = leftOver d g x n := by
  induction n using Nat.strong_induction_on with
  | _ n ih =>
    cases n with
    | zero => rw [lag, leftOver]
    | succ n =>
      rw [lag, leftOver, ih n (by omega)]
      by_cases h : d ≤ n
      · rw [if_pos h, if_pos h, ih (n - d) (by omega)]; ring
      · rw [if_neg h, if_neg h]; ring

/-- **C164 (exactly which sensitivities).** A loop with gain `g` whose sensor answers `γ` times what it did at calibration removes a still aberration exactly if `γ g` lies between 0 and `2 sin(π / (2 (2 d + 1)))`; a sensor of the wrong sign never does. -/
theorem C164_gain_exact (N d : ℕ) (g : ℕ → ℚ) (γ : ℚ) (hγ : γ ≠ 0) (a : ℕ → ℚ) (p : ℕ) (hp : p < N) (ha : a p ≠ 0) :
    Settles (fun n => misfit N d g (fun r q => if r = q then γ else 0) (fun _ => a) (fun _ _ => 0) n p) ↔ StableGain d (g p * γ) := by
  have : (fun n => misfit N d g (fun r q => if r = q then γ else 0) (fun _ => a) (fun _ _ => 0) n p) = leftOver d (g p * γ) (a p) := by
    funext n
    rw [C164_gain N d g γ hγ _ _ p hp n, ← lag_still]
    simp
  rw [this]
  exact C79_exact d (g p * γ) (a p) ha

/-- **C164 (actuators exchanged).** Two actuators that are taken for each other: what is left of the difference of their components grows without end, for every gain and delay. -/
theorem C164_exchanged (d : ℕ) (g : ℚ) (hg : 0 < g) (a : ℕ → ℚ) (ha : a 1 < a 0) (n : ℕ) :
    (a 0 - a 1) * (1 + g * ((n - d : ℕ) : ℚ)) ≤ misfit 2 d (fun _ => g) (fun r p => if r = p then 0 else 1) (fun _ => a) (fun _ _ => 0) n 0
      - misfit 2 d (fun _ => g) (fun r p => if r = p then 0 else 1) (fun _ => a) (fun _ _ => 0) n 1 := by
  set R := misfit 2 d (fun _ => g) (fun r p => if r = p then 0 else 1) (fun _ => a) (fun _ _ => 0) with hR
  have hD : 0 < a 0 - a 1 := by linarith
  have hrec : ∀ n, R (n + 1) 0 - R (n + 1) 1 = (R n 0 - R n 1) + if d ≤ n then g * (R (n - d) 0 - R (n - d) 1) else 0 := by
    intro n
    rw [hR, misfit_succ, misfit_succ, ← hR]
    by_cases h : d ≤ n
    · simp only [if_pos h, Finset.sum_range_succ, Finset.sum_range_zero]
      norm_num
      ring
    · simp only [if_neg h]; ring
  have z : R 0 0 - R 0 1 = a 0 - a 1 := by rw [hR, misfit, misfit]
  induction n using Nat.strong_induction_on with
  | _ n ih =>
    cases n with
    | zero => rw [z]; simp
    | succ n =>
      rw [hrec]
      have i1 := ih n (by omega)
      by_cases h : d ≤ n
      · rw [if_pos h]
        have i2 := ih (n - d) (by omega)
        have e : n + 1 - d = (n - d) + 1 := by omega
        rw [e]
        push_cast
        have : (a 0 - a 1) ≤ R (n - d) 0 - R (n - d) 1 := by
          refine le_trans ?_ i2
          have : 0 ≤ g * (((n - d) - d : ℕ) : ℚ) := by positivity
          nlinarith
        nlinarith
      · rw [if_neg h]
        rw [show n + 1 - d = 0 by omega]
        rw [show n - d = 0 by omega] at i1
        linarith

/-- The hypotheses of `C164_converges` are met by three actuators that see a tenth of each neighbour, gain 1/4, delay 2. -/
example : ∃ T : ℕ → ℕ → ℚ, T 0 1 = 1 / 10 ∧ (∀ p < 3, ∑ r ∈ Finset.range 3, |T r p - if r = p then 1 else 0| ≤ 3 / 10) ∧ (3 / 10 : ℚ) + 1 / 4 * (2 : ℕ) * (1 + 3 / 10) < 1 := by
  refine ⟨fun r p => if r = p then 11 / 10 else 1 / 10, by norm_num, ?_, by norm_num⟩
  intro p hp
  have h : p = 0 ∨ p = 1 ∨ p = 2 := by omega
  rcases h with rfl | rfl | rfl <;> norm_num [Finset.sum_range_succ, abs_of_pos]

/-- **C164 (modes).** One gain for all: an eigenvector of what comes back, with factor `l`, is a combination of commands that the loop corrects by itself, like a single actuator (C110) with `l` times the gain and errors divided by `l`. -/
theorem C164_mode (N d : ℕ) (g : ℚ) (T : ℕ → ℕ → ℚ) (a b : ℕ → ℕ → ℚ) (w : ℕ → ℚ) (l : ℚ) (hl : l ≠ 0) (hw : ∀ r < N, ∑ p ∈ Finset.range N, T r p * w p = l * w r) (n : ℕ) :
    ∑ p ∈ Finset.range N, w p * misfit N d (fun _ => g) T a b n p = lag d (g * l) (fun k => ∑ p ∈ Finset.range N, w p * a k p) (fun k => (∑ p ∈ Finset.range N, w p * b k p) / l) n := by
  induction n using Nat.strong_induction_on with
  | _ n ih =>
    cases n with
    | zero => rw [lag]; exact Finset.sum_congr rfl fun p _ => by rw [misfit]
    | succ n =>
      rw [lag, ← ih n (by omega)]
      have e : ∀ p ∈ Finset.range N, w p * misfit N d (fun _ => g) T a b (n + 1) p = w p * misfit N d (fun _ => g) T a b n p + (w p * a (n + 1) p - w p * a n p)
          - w p * (if d ≤ n then g * (∑ r ∈ Finset.range N, T r p * misfit N d (fun _ => g) T a b (n - d) r + b (n - d) p) else 0) := fun p _ => by rw [misfit_succ]; ring
      rw [Finset.sum_congr rfl e, Finset.sum_sub_distrib, Finset.sum_add_distrib, Finset.sum_sub_distrib]
      by_cases h : d ≤ n
      · simp only [if_pos h]
        congr 1
        rw [← ih (n - d) (by omega)]
        have f : ∀ p ∈ Finset.range N, w p * (g * (∑ r ∈ Finset.range N, T r p * misfit N d (fun _ => g) T a b (n - d) r + b (n - d) p)) =
            g * (∑ r ∈ Finset.range N, (T r p * w p) * misfit N d (fun _ => g) T a b (n - d) r) + g * (w p * b (n - d) p) := by
          intro p _
          have : ∑ r ∈ Finset.range N, (T r p * w p) * misfit N d (fun _ => g) T a b (n - d) r = w p * ∑ r ∈ Finset.range N, T r p * misfit N d (fun _ => g) T a b (n - d) r := by
            rw [Finset.mul_sum]
            exact Finset.sum_congr rfl fun r _ => by ring
          rw [this]
          ring
        rw [Finset.sum_congr rfl f, Finset.sum_add_distrib, ← Finset.mul_sum, ← Finset.mul_sum, Finset.sum_comm]
        have k : ∀ r ∈ Finset.range N, ∑ p ∈ Finset.range N, (T r p * w p) * misfit N d (fun _ => g) T a b (n - d) r = l * (w r * misfit N d (fun _ => g) T a b (n - d) r) := by
          intro r hr
          rw [← Finset.sum_mul, hw r (Finset.mem_range.mp hr)]
          ring
        rw [Finset.sum_congr rfl k, ← Finset.mul_sum]
        field_simp
      · simp only [if_neg h, mul_zero, Finset.sum_const_zero]

/-- Without errors; the factor may be zero. -/
theorem C164_mode_still (N d : ℕ) (g : ℚ) (T : ℕ → ℕ → ℚ) (a : ℕ → ℚ) (w : ℕ → ℚ) (l : ℚ) (hw : ∀ r < N, ∑ p ∈ Finset.range N, T r p * w p = l * w r) (n : ℕ) :
    ∑ p ∈ Finset.range N, w p * misfit N d (fun _ => g) T (fun _ => a) (fun _ _ => 0) n p = leftOver d (g * l) (∑ p ∈ Finset.range N, w p * a p) n := by
  by_cases hl : l = 0
  · subst hl
    induction n with
    | zero => rw [leftOver]; exact Finset.sum_congr rfl fun p _ => by rw [misfit]
    | succ n ih =>
      rw [leftOver, ← ih]
      simp only [misfit_succ, sub_self, add_zero, mul_zero, zero_mul, ite_self, sub_zero, mul_sub, Finset.sum_sub_distrib]
      rw [sub_eq_self]
      by_cases h : d ≤ n
      · simp only [if_pos h]
        have f : ∀ p ∈ Finset.range N, w p * (g * ∑ r ∈ Finset.range N, T r p * misfit N d (fun _ => g) T (fun _ => a) (fun _ _ => 0) (n - d) r) =
            g * (∑ r ∈ Finset.range N, (T r p * w p) * misfit N d (fun _ => g) T (fun _ => a) (fun _ _ => 0) (n - d) r) := by
          intro p _
          rw [Finset.mul_sum, Finset.mul_sum, Finset.mul_sum]
          exact Finset.sum_congr rfl fun r _ => by ring
        rw [Finset.sum_congr rfl f, ← Finset.mul_sum, Finset.sum_comm]
        rw [Finset.sum_eq_zero fun r hr => by rw [← Finset.sum_mul, hw r (Finset.mem_range.mp hr)]; ring]
        rw [mul_zero]
      · simp only [if_neg h, mul_zero, Finset.sum_const_zero]
  · rw [C164_mode N d g T _ _ w l hl hw n, ← lag_still]
    simp

/-- **C164 (exactly which matrices).** If what comes back has a full set of eigenvectors (`w`, with dual vectors `v` and factors `l`), then the loop with gain `g` removes every still aberration exactly if `g` times every factor is a stable gain. -/
theorem C164_modes_exact (N d : ℕ) (g : ℚ) (T : ℕ → ℕ → ℚ) (w v : ℕ → ℕ → ℚ) (l : ℕ → ℚ) (hw : ∀ k < N, ∀ r < N, ∑ p ∈ Finset.range N, T r p * w k p = l k * w k r)
    (hwv : ∀ p < N, ∀ r < N, ∑ k ∈ Finset.range N, v k p * w k r = if r = p then 1 else 0) (hne : ∀ k < N, ∃ r < N, w k r ≠ 0) :
    (∀ a : ℕ → ℚ, ∀ p < N, Settles fun n => misfit N d (fun _ => g) T (fun _ => a) (fun _ _ => 0) n p) ↔ ∀ k < N, StableGain d (g * l k) := by
  constructor
  · intro h k hk
    obtain ⟨r, hr, hwr⟩ := hne k hk
    have hs := settles_sum N (fun p n => misfit N d (fun _ => g) T (fun _ q => if q = r then 1 else 0) (fun _ _ => 0) n p) (w k) fun p hp => h (fun q => if q = r then 1 else 0) p hp
    have e : (fun n => ∑ p ∈ Finset.range N, misfit N d (fun _ => g) T (fun _ q => if q = r then 1 else 0) (fun _ _ => 0) n p * w k p) = leftOver d (g * l k) (w k r) := by
      funext n
      rw [Finset.sum_congr rfl fun p _ => mul_comm _ (w k p), C164_mode_still N d g T _ (w k) (l k) (hw k hk) n]
      congr 1
      simp only [mul_ite, mul_one, mul_zero]
      rw [Finset.sum_ite_eq' (Finset.range N) r, if_pos (Finset.mem_range.mpr hr)]
    rw [e] at hs
    exact (C79_exact d (g * l k) (w k r) hwr).mp hs
  · intro h a p hp
    have hs := settles_sum N (fun k => leftOver d (g * l k) (∑ r ∈ Finset.range N, w k r * a r)) (fun k => v k p) fun k hk => by
      by_cases hz : ∑ r ∈ Finset.range N, w k r * a r = 0
      · have : leftOver d (g * l k) (∑ r ∈ Finset.range N, w k r * a r) = fun _ => 0 := by
          funext n
          rw [hz]
          induction n using Nat.strong_induction_on with
          | _ n ih =>
            cases n with
            | zero => rw [leftOver]
            | succ n => rw [leftOver, ih n (by omega), ih (n - d) (by omega)]; simp
        rw [this]
        exact fun ε hε => ⟨0, fun n _ => by simpa using hε⟩
      · exact (C79_exact d (g * l k) _ hz).mpr (h k hk)
    have e : (fun n => misfit N d (fun _ => g) T (fun _ => a) (fun _ _ => 0) n p) = fun n => ∑ k ∈ Finset.range N, leftOver d (g * l k) (∑ r ∈ Finset.range N, w k r * a r) n * v k p := by
      funext n
      have : ∀ k ∈ Finset.range N, leftOver d (g * l k) (∑ r ∈ Finset.range N, w k r * a r) n * v k p = ∑ r ∈ Finset.range N, (v k p * w k r) * misfit N d (fun _ => g) T (fun _ => a) (fun _ _ => 0) n r := by
        intro k hk
        rw [← C164_mode_still N d g T a (w k) (l k) (hw k (Finset.mem_range.mp hk)) n, Finset.sum_mul]
        exact Finset.sum_congr rfl fun r _ => by ring
      rw [Finset.sum_congr rfl this, Finset.sum_comm]
      rw [Finset.sum_congr rfl fun r hr => by rw [← Finset.sum_mul, hwv p hp r (Finset.mem_range.mp hr)]]
      simp only [ite_mul, one_mul, zero_mul]
      rw [Finset.sum_ite_eq' (Finset.range N) p, if_pos (Finset.mem_range.mpr hp)]
    rw [e]
    exact hs

/-- Two actuators that see half of each other: sum and difference are the modes, with factors 3/2 and 1/2. -/
example (d : ℕ) (g : ℚ) : (∀ a : ℕ → ℚ, ∀ p < 2, Settles fun n => misfit 2 d (fun _ => g) (fun r p => if r = p then 1 else 1 / 2) (fun _ => a) (fun _ _ => 0) n p) ↔ ∀ k < 2, StableGain d (g * if k = 0 then 3 / 2 else 1 / 2) := by
  refine C164_modes_exact 2 d g _ (fun k p => if k = 0 then 1 else if p = 0 then 1 else -1) (fun k p => if k = 0 then 1 / 2 else if p = 0 then 1 / 2 else -1 / 2) (fun k => if k = 0 then 3 / 2 else 1 / 2) ?_ ?_ ?_
  · intro k hk r hr
    interval_cases k <;> interval_cases r <;> norm_num [Finset.sum_range_succ]
  · intro k hk r hr
    interval_cases k <;> interval_cases r <;> norm_num [Finset.sum_range_succ]
  · intro k hk
    exact ⟨0, by norm_num, by interval_cases k <;> norm_num⟩

/-- What the control matrix makes of a poke: in place of one for the poked actuator and zero for the others. -/
def comesBack (P M : List (List ℚ)) (r p : ℕ) : ℚ := ∑ m ∈ Finset.range P.length, (M.getD r []).getD m 0 * (P.getD m []).getD p 0

/-- **C164 (whole).** A simulation with a control matrix from elsewhere — loaded, of another configuration, or scaled: whatever the matrix, the atmosphere and the noise, the run completes; and whatever part `a` of the atmosphere one wants to follow,
the commands are `a` less `misfit`, what comes back being the interaction matrix times the control matrix, and the errors what the control matrix makes of the rest of the atmosphere and of the noise. -/
theorem C164_whole (o : Optics) (ho : Optics.Sound o) (totalActs : ℕ) (dms dms' : List Persist.Dm) (M : List (List ℚ)) (hcal : o.calibrate totalActs dms = .ok (dms', M))
    (hne : dms ≠ []) (hdms : ∀ d ∈ dms, d.shapes.length = d.nActs ∧ (o.scrn + d.nElem) % 2 = 0) (hkept : ∀ d ∈ dms', d.shapes ≠ [])
    (P : List (List ℚ)) (hrows : P.length = o.totalMeas) (hcols : ∀ r ∈ P, r.length = M.length)
    (gains : List ℚ) (hg : gains.length = dms.length) (d nIters nActs n : ℕ) (hN : 1 ≤ nIters) (saveSlopes saveDm : Bool) (hstore : saveDm = true → nActs = M.length) (turb : ℕ → ℕ → ℕ → ℕ → ℚ) (err : ℕ → ℕ → ℚ) :
    ∃ s' ts, runLoop (o.sys dms' P d nIters saveSlopes saveDm) (o.noisyPlant turb err) (initial (o.sys dms' P d nIters saveSlopes saveDm) (controls dms' gains) o.totalMeas nActs ()) (List.replicate n (controls dms' gains)) = .ok (s', ts) ∧
      ts.length = n ∧ ∀ (i : ℕ) (t : Trace Stack), ts[i]? = some t →
        (∀ (a : ℕ → ℕ → ℚ) (p : ℕ), p < M.length → t.cmds[p]? =
          some (a i p - misfit M.length d (gainOf (controls dms' gains)) (comesBack P M) a
            (fun k p => ∑ m ∈ Finset.range o.totalMeas, (P.getD m []).getD p 0 * ((o.uncorrected (turb k)).getD m 0 - (∑ q ∈ Finset.range M.length, a k q * (M.getD q []).getD m 0) + err k m)) i p)) ∧
        t.slopes = (List.range o.totalMeas).map fun m => (o.uncorrected (turb i)).getD m 0 - (∑ p ∈ Finset.range M.length, t.cmds.getD p 0 * (M.getD p []).getD m 0) + err i m := by
  obtain ⟨hl, hML, hrow⟩ := calibrate_rows o ho totalActs dms dms' M hcal hdms
  have hg' : gains.length = dms'.length := by omega
  have hval := controls_valid dms' gains hg'
  have hnC : nCommands (controls dms' gains) = M.length := by rw [nCommands, hval, hML]
  have hfirst : ∀ k, firstCommand (controls dms' gains) k = ((dms'.take k).map fun d => d.shapes.length).sum := by
    intro k
    rw [firstCommand, List.map_take, List.map_take, hval]
  have hsh : ∀ p, p < M.length → ∀ m, m < o.totalMeas → senses o (shapeAt o 0 dms' p) m = (M.getD p []).getD m 0 := by
    intro p hp m hm
    obtain ⟨⟨k, j⟩, ⟨c, hk, hj, hpe⟩, _⟩ := C11_blocks_partition (controls dms' gains) p (by omega)
    dsimp only at hk hj hpe
    obtain ⟨d', hd', hv, _, _⟩ := controls_get dms' gains hg' k c hk
    rw [hpe, hfirst, shapeAt_get o dms' 0 k d' j hd' (by omega), (hrow k d' hd').2 j (by omega) m hm, Nat.zero_add]
  have hunc : ∀ i m, m < o.totalMeas → (o.uncorrected (turb i)).getD m 0 = senses o (turb i, 0) m := by
    intro i m hm
    rw [uncorrected_get o ho, List.getD_eq_getElem?_getD, List.getElem?_map, List.getElem?_range hm]
    rfl
  have hne' : controls dms' gains ≠ [] := by
    intro hcon
    have h1 : (controls dms' gains).length = 0 := by rw [hcon]; rfl
    have h2 : dms.length ≠ 0 := by simpa using hne
    rw [show (controls dms' gains).length = min dms'.length gains.length by simp [controls]] at h1
    omega
  have hclosed : ∀ c ∈ controls dms' gains, c.closed = true := by
    intro c hc
    obtain ⟨k, hk⟩ := List.mem_iff_getElem?.mp hc
    obtain ⟨_, _, _, h, _⟩ := controls_get dms' gains hg' k c hk
    exact h
  have hsurf : ∀ (k : ℕ) (m : DmCtl), (controls dms' gains)[k]? = some m → ∀ c : List ℚ, c.length = m.nValid →
      (o.sys dms' P d nIters saveSlopes saveDm).surface k c = .ok (∑ j ∈ Finset.range m.nValid, c.getD j 0 • shapeAt o 0 dms' (firstCommand (controls dms' gains) k + j)) := by
    intro k c hk cmd hc
    obtain ⟨d', hd', hv, _, _⟩ := controls_get dms' gains hg' k c hk
    obtain ⟨x, x1, x2⟩ := surface_ok o k d' (hrow k d' hd').1 (hkept d' (List.mem_of_getElem? hd')) cmd (by omega)
    simp only [Optics.sys, hd', x1, x2, hv]
    congr 1
    refine Finset.sum_congr rfl fun j hj => ?_
    rw [hfirst, shapeAt_get o dms' 0 k d' j hd' (Finset.mem_range.mp hj), Nat.zero_add]
  have hprod : (o.sys dms' P d nIters saveSlopes saveDm).product = tdot (nCommands (controls dms' gains)) P := by simp only [Optics.sys]; rw [hnC, hML]
  -- every choice of the part to follow gives the same run
  have key : ∀ a : ℕ → ℕ → ℚ, ∃ s' ts, runLoop (o.sys dms' P d nIters saveSlopes saveDm) (o.noisyPlant turb err) (initial (o.sys dms' P d nIters saveSlopes saveDm) (controls dms' gains) o.totalMeas nActs ()) (List.replicate n (controls dms' gains)) = .ok (s', ts) ∧
      ts.length = n ∧ ∀ (i : ℕ) (t : Trace Stack), ts[i]? = some t → ∀ p, p < M.length → t.cmds[p]? =
          some (a i p - misfit M.length d (gainOf (controls dms' gains)) (comesBack P M) a
            (fun k p => ∑ m ∈ Finset.range o.totalMeas, (P.getD m []).getD p 0 * ((o.uncorrected (turb k)).getD m 0 - (∑ q ∈ Finset.range M.length, a k q * (M.getD q []).getD m 0) + err k m)) i p) := by
    intro a
    set ψ : ℕ → Stack := fun i => (turb i, 0) - ∑ p ∈ Finset.range M.length, a i p • shapeAt o 0 dms' p with hψ
    have hSψ : ∀ i m, m < o.totalMeas → senses o (ψ i) m = (o.uncorrected (turb i)).getD m 0 - ∑ p ∈ Finset.range M.length, a i p * (M.getD p []).getD m 0 := by
      intro i m hm
      rw [hψ]
      dsimp only
      rw [map_sub, Pi.sub_apply, map_sum, Finset.sum_apply, hunc i m hm]
      congr 1
      refine Finset.sum_congr rfl fun p hp => ?_
      rw [map_smul, Pi.smul_apply, smul_eq_mul, hsh p (Finset.mem_range.mp hp) m hm]
    obtain ⟨s', ts, hrun, hlen, hts⟩ := C164_loop (o.sys dms' P d nIters saveSlopes saveDm) (o.noisyPlant turb err) (controls dms' gains) hne' hclosed
      o.totalMeas nActs d n rfl hN (by intro h; rw [hnC]; exact hstore h) (shapeAt o 0 dms') (senses o) (fun i => (turb i, 0)) ψ a err (gainOf (controls dms' gains)) hsurf (gainOf_get _)
      (noisy_sense o ho turb err) P hrows (by rw [hnC]; exact hcols) hprod (comesBack P M)
      (by
        intro p q hp hq
        rw [hnC] at hp hq
        rw [comesBack, hrows]
        refine Finset.sum_congr rfl fun m hm => ?_
        rw [zero_sub, map_neg, Pi.neg_apply, neg_neg, hsh p hp m (Finset.mem_range.mp hm)])
      (by intro i; rw [hnC, hψ]; simp)
    refine ⟨s', ts, hrun, hlen, fun i t ht p hp => ?_⟩
    rw [hts i t ht p (by omega), hnC]
    have : (fun k p => ∑ m ∈ Finset.range o.totalMeas, (P.getD m []).getD p 0 * (senses o (ψ k) m + err k m)) = fun k p => ∑ m ∈ Finset.range o.totalMeas, (P.getD m []).getD p 0 * ((o.uncorrected (turb k)).getD m 0 - (∑ q ∈ Finset.range M.length, a k q * (M.getD q []).getD m 0) + err k m) := by
      funext k p
      refine Finset.sum_congr rfl fun m hm => ?_
      rw [hSψ k m (Finset.mem_range.mp hm)]
    rw [this]
  obtain ⟨s', ts, hrun, hlen, _⟩ := key fun _ _ => 0
  refine ⟨s', ts, hrun, hlen, fun i t ht => ⟨fun a p hp => ?_, ?_⟩⟩
  · obtain ⟨s2, ts2, hrun2, _, h⟩ := key a
    rw [hrun] at hrun2
    cases hrun2
    exact h i t ht p hp
  have hs := run_slopes_at _ (o.noisyPlant turb err) (fun i corr => (List.range o.totalMeas).map fun m => senses o ((turb i, 0) - corr.sum) m + err i m) (noisy_sense o ho turb err) (controls dms' gains) n _ s' ts hrun
  simp only [initial, Nat.zero_add] at hs
  have hsum := (closed_run _ _ (controls dms' gains) hne' hclosed o.totalMeas nActs d n () rfl (shapeAt o 0 dms') (gainOf (controls dms' gains)) hsurf (gainOf_get _) P hrows (by rw [hnC]; exact hcols) hprod s' ts hrun (by
    intro t ht
    obtain ⟨i, hi, e⟩ := List.mem_iff_getElem.mp ht
    rw [hs i t (by rw [← e]; exact List.getElem?_eq_getElem hi)]
    simp) i t ht).2
  rw [hs i t ht]
  refine List.map_congr_left fun m hm => ?_
  rw [List.mem_range] at hm
  rw [hsum, hnC, map_sub, Pi.sub_apply, map_sum, Finset.sum_apply, hunc i m hm]
  congr 2
  refine Finset.sum_congr rfl fun p hp => ?_
  rw [map_smul, Pi.smul_apply, smul_eq_mul, hsh p (Finset.mem_range.mp hp) m hm]

/-- **C164 (a stored matrix).** A control matrix that undoes the interaction matrix `M'` of another configuration: if for every actuator what the control matrix makes of the difference of both interaction matrices adds up to at most `ε`, and `ε + g d (1 + ε) < 1` for all gains, `0 < g ≤ 1`,
then of a still atmosphere that the sensors see like a shape of the mirrors (commands `c`) nothing is left: commands come and stay as close as one likes to `c`, measurements to zero. -/
theorem C164_stored (o : Optics) (ho : Optics.Sound o) (totalActs : ℕ) (dms dms' : List Persist.Dm) (M M' : List (List ℚ)) (hcal : o.calibrate totalActs dms = .ok (dms', M))
    (hne : dms ≠ []) (hdms : ∀ d ∈ dms, d.shapes.length = d.nActs ∧ (o.scrn + d.nElem) % 2 = 0) (hkept : ∀ d ∈ dms', d.shapes ≠ [])
    (P : List (List ℚ)) (hrows : P.length = o.totalMeas) (hcols : ∀ r ∈ P, r.length = M.length) (hM' : M'.length = M.length) (hinv : Undoes P M')
    (gains : List ℚ) (hg : gains.length = dms.length) (d nIters nActs : ℕ) (hN : 1 ≤ nIters) (saveSlopes saveDm : Bool) (hstore : saveDm = true → nActs = M.length) (ε : ℚ)
    (hε : ∀ p < M.length, ∑ r ∈ Finset.range M.length, |∑ m ∈ Finset.range P.length, ((M.getD r []).getD m 0 - (M'.getD r []).getD m 0) * (P.getD m []).getD p 0| ≤ ε)
    (hgains : ∀ g ∈ gains, 0 < g ∧ g ≤ 1 ∧ ε + g * d * (1 + ε) < 1)
    (still : ℕ → ℕ → ℕ → ℚ) (c : ℕ → ℚ) (hc : ∀ m, m < o.totalMeas → (o.uncorrected still).getD m 0 = ∑ p ∈ Finset.range M.length, c p * (M.getD p []).getD m 0) (η : ℚ) (hη : 0 < η) :
    ∃ K, ∀ n, ∃ s' ts, runLoop (o.sys dms' P d nIters saveSlopes saveDm) (o.plant fun _ => still) (initial (o.sys dms' P d nIters saveSlopes saveDm) (controls dms' gains) o.totalMeas nActs ()) (List.replicate n (controls dms' gains)) = .ok (s', ts) ∧
      ts.length = n ∧ ∀ (i : ℕ) (t : Trace Stack), K ≤ i → ts[i]? = some t →
        (∀ p, p < M.length → ∃ x, t.cmds[p]? = some x ∧ |x - c p| < η) ∧ t.slopes.length = o.totalMeas ∧ ∀ x ∈ t.slopes, |x| < η := by
  have hgp : ∀ p < M.length, 0 < gainOf (controls dms' gains) p ∧ gainOf (controls dms' gains) p ≤ 1 ∧ ε + gainOf (controls dms' gains) p * d * (1 + ε) < 1 :=
    fun p hp => hgains _ (gainOf_mem o ho totalActs dms dms' M hcal hdms gains hg p hp)
  have hT : ∀ p < M.length, ∑ r ∈ Finset.range M.length, |comesBack P M r p - if r = p then 1 else 0| ≤ ε := by
    intro p hp
    refine le_trans (le_of_eq (Finset.sum_congr rfl fun r hr => ?_)) (hε p hp)
    rw [← hinv r p (by rw [hM']; exact Finset.mem_range.mp hr) (by rw [hM']; exact hp), comesBack, ← Finset.sum_sub_distrib]
    congr 1
    refine Finset.sum_congr rfl fun m _ => ?_
    ring
  set e : ℕ → ℕ → ℚ := fun p i => misfit M.length d (gainOf (controls dms' gains)) (comesBack P M) (fun _ => c) (fun _ _ => 0) i p with he
  have hset : ∀ p, p < M.length → Settles (e p) := fun p hp =>
    C164_converges M.length d (gainOf (controls dms' gains)) (comesBack P M) c ε (fun p hp => (hgp p hp).1) (fun p hp => (hgp p hp).2.1) hT (fun p hp => (hgp p hp).2.2) p hp
  obtain ⟨K1, hK1⟩ := settles_all M.length e hset η hη
  obtain ⟨K2, hK2⟩ := settles_all o.totalMeas (fun m i => ∑ p ∈ Finset.range M.length, e p i * (M.getD p []).getD m 0) (fun m _ => settles_sum M.length e (fun p => (M.getD p []).getD m 0) hset) η hη
  refine ⟨max K1 K2, fun n => ?_⟩
  obtain ⟨s', ts, hrun, hlen, hts⟩ := C164_whole o ho totalActs dms dms' M hcal hne hdms hkept P hrows hcols gains hg d nIters nActs n hN saveSlopes saveDm hstore (fun _ => still) fun _ _ => 0
  have hpl := noisy_zero o fun _ => still
  rw [hpl] at hrun
  refine ⟨s', ts, hrun, hlen, fun i t hi ht => ?_⟩
  obtain ⟨h1, h2⟩ := hts i t ht
  have hzero : (fun (k : ℕ) p => ∑ m ∈ Finset.range o.totalMeas, (P.getD m []).getD p 0 * ((o.uncorrected still).getD m 0 - (∑ q ∈ Finset.range M.length, c q * (M.getD q []).getD m 0) + 0)) = fun (_ _ : ℕ) => (0 : ℚ) := by
    funext k p
    refine Finset.sum_eq_zero fun m hm => ?_
    rw [hc m (Finset.mem_range.mp hm)]
    ring
  have hcmd : ∀ p, p < M.length → t.cmds[p]? = some (c p - e p i) := by
    intro p hp
    have := h1 (fun _ => c) p hp
    rw [hzero] at this
    exact this
  refine ⟨fun p hp => ⟨_, hcmd p hp, ?_⟩, by rw [h2]; simp, ?_⟩
  · rw [sub_sub_cancel_left, abs_neg]
    exact hK1 i (le_trans (le_max_left _ _) hi) p hp
  · intro x hx
    rw [h2] at hx
    obtain ⟨m, hm, rfl⟩ := List.mem_map.mp hx
    rw [List.mem_range] at hm
    have := hK2 i (le_trans (le_max_right _ _) hi) m hm
    rw [add_zero, hc m hm, ← Finset.sum_sub_distrib]
    rw [Finset.sum_congr rfl fun p hp => show c p * (M.getD p []).getD m 0 - t.cmds.getD p 0 * (M.getD p []).getD m 0 = e p i * (M.getD p []).getD m 0 by
      rw [show t.cmds.getD p 0 = _ by rw [List.getD_eq_getElem?_getD, hcmd p (Finset.mem_range.mp hp), Option.getD_some]]
      ring]
    exact this

/-- **C164 (follows).** The same with an atmosphere that moves and noise: if the commands `c` that would cancel what the sensors see of the atmosphere change by at most `δ` per frame, and the control matrix makes at most `β` of the noise, commands come geometrically within `K` of `c` and stay there,
`K` being any number with `(1 + g d) (δ + g β) ≤ g (1 - ε - g d (1 + ε)) K` for all gains. -/
theorem C164_follows (o : Optics) (ho : Optics.Sound o) (totalActs : ℕ) (dms dms' : List Persist.Dm) (M M' : List (List ℚ)) (hcal : o.calibrate totalActs dms = .ok (dms', M))
    (hne : dms ≠ []) (hdms : ∀ d ∈ dms, d.shapes.length = d.nActs ∧ (o.scrn + d.nElem) % 2 = 0) (hkept : ∀ d ∈ dms', d.shapes ≠ [])
    (P : List (List ℚ)) (hrows : P.length = o.totalMeas) (hcols : ∀ r ∈ P, r.length = M.length) (hM' : M'.length = M.length) (hinv : Undoes P M')
    (gains : List ℚ) (hg : gains.length = dms.length) (d nIters nActs n : ℕ) (hN : 1 ≤ nIters) (saveSlopes saveDm : Bool) (hstore : saveDm = true → nActs = M.length) (ε δ β ρ K A : ℚ)
    (hε : ∀ p < M.length, ∑ r ∈ Finset.range M.length, |∑ m ∈ Finset.range P.length, ((M.getD r []).getD m 0 - (M'.getD r []).getD m 0) * (P.getD m []).getD p 0| ≤ ε)
    (hgains : ∀ g ∈ gains, 0 < g ∧ g ≤ 1 ∧ 1 - g * (1 - ε - g * d * (1 + ε)) ≤ ρ ∧ (1 + g * d) * (δ + g * β) ≤ g * (1 - ε - g * d * (1 + ε)) * K) (hρ : ρ < 1)
    (turb : ℕ → ℕ → ℕ → ℕ → ℚ) (err : ℕ → ℕ → ℚ) (c : ℕ → ℕ → ℚ) (hc : ∀ i m, m < o.totalMeas → (o.uncorrected (turb i)).getD m 0 = ∑ p ∈ Finset.range M.length, c i p * (M.getD p []).getD m 0)
    (hδ : ∀ i, ∀ p < M.length, |c (i + 1) p - c i p| ≤ δ) (hβ : ∀ i, ∀ p < M.length, |∑ m ∈ Finset.range o.totalMeas, (P.getD m []).getD p 0 * err i m| ≤ β) (hA : ∀ p < M.length, |c 0 p| ≤ A) :
    ∃ s' ts, runLoop (o.sys dms' P d nIters saveSlopes saveDm) (o.noisyPlant turb err) (initial (o.sys dms' P d nIters saveSlopes saveDm) (controls dms' gains) o.totalMeas nActs ()) (List.replicate n (controls dms' gains)) = .ok (s', ts) ∧
      ts.length = n ∧ ∀ (i : ℕ) (t : Trace Stack), ts[i]? = some t → ∀ p, p < M.length → ∃ x, t.cmds[p]? = some x ∧ ∀ q, q * (2 * d + 1) + d ≤ i → |c i p - x| ≤ ρ ^ q * (A + d * δ) + K := by
  have hgp : ∀ p < M.length, 0 < gainOf (controls dms' gains) p ∧ gainOf (controls dms' gains) p ≤ 1 ∧ 1 - gainOf (controls dms' gains) p * (1 - ε - gainOf (controls dms' gains) p * d * (1 + ε)) ≤ ρ ∧
      (1 + gainOf (controls dms' gains) p * d) * (δ + gainOf (controls dms' gains) p * β) ≤ gainOf (controls dms' gains) p * (1 - ε - gainOf (controls dms' gains) p * d * (1 + ε)) * K :=
    fun p hp => hgains _ (gainOf_mem o ho totalActs dms dms' M hcal hdms gains hg p hp)
  have hT : ∀ p < M.length, ∑ r ∈ Finset.range M.length, |comesBack P M r p - if r = p then 1 else 0| ≤ ε := by
    intro p hp
    refine le_trans (le_of_eq (Finset.sum_congr rfl fun r hr => ?_)) (hε p hp)
    rw [← hinv r p (by rw [hM']; exact Finset.mem_range.mp hr) (by rw [hM']; exact hp), comesBack, ← Finset.sum_sub_distrib]
    congr 1
    refine Finset.sum_congr rfl fun m _ => ?_
    ring
  obtain ⟨s', ts, hrun, hlen, hts⟩ := C164_whole o ho totalActs dms dms' M hcal hne hdms hkept P hrows hcols gains hg d nIters nActs n hN saveSlopes saveDm hstore turb err
  refine ⟨s', ts, hrun, hlen, fun i t ht p hp => ⟨_, (hts i t ht).1 c p hp, fun q hq => ?_⟩⟩
  rw [sub_sub_cancel]
  refine C164_bounded M.length d (gainOf (controls dms' gains)) (comesBack P M) c _ ε δ β ρ K A (fun p hp => (hgp p hp).1) (fun p hp => (hgp p hp).2.1) hT hδ ?_ hA (fun p hp => (hgp p hp).2.2.1) hρ (fun p hp => (hgp p hp).2.2.2) q i hq p hp
  intro k p hp
  refine le_trans (le_of_eq ?_) (hβ k p hp)
  congr 1
  refine Finset.sum_congr rfl fun m hm => ?_
  rw [hc k m (Finset.mem_range.mp hm), sub_self, zero_add]

/-- The conditions on the gains in `C164_follows`, for gain 1/2 and delay 1, a mismatch of a tenth, changes up to 1 and errors up to 1. -/
example : ∃ ρ K : ℚ, ρ < 1 ∧ ∀ g ∈ [(1 / 2 : ℚ), 1 / 4], 0 < g ∧ g ≤ 1 ∧ 1 - g * (1 - 1 / 10 - g * (1 : ℕ) * (1 + 1 / 10)) ≤ ρ ∧ (1 + g * (1 : ℕ)) * (1 + g * 1) ≤ g * (1 - 1 / 10 - g * (1 : ℕ) * (1 + 1 / 10)) * K := by
  refine ⟨9 / 10, 20, by norm_num, ?_⟩
  intro g hg
  simp only [List.mem_cons, List.not_mem_nil, or_false] at hg
  rcases hg with rfl | rfl <;> norm_num

/-- The control matrix of `wholeOptics` reduced to nine tenths, stored with an interaction matrix that is larger accordingly, still nulls a tilt. -/
example (η : ℚ) (hη : 0 < η) : ∃ dms', wholeOptics.calibrate 4 wholeDms = .ok (dms', wholeImat) ∧ ∃ K, ∀ n, ∃ s' ts,
    runLoop (wholeOptics.sys dms' (wholeCmat.map (List.map (9 / 10 * ·))) 1 100 true false) (wholeOptics.plant fun _ l i _ => if l = 0 then 3 * i else 0) (initial (wholeOptics.sys dms' (wholeCmat.map (List.map (9 / 10 * ·))) 1 100 true false) (controls dms' [1 / 2, 1 / 4]) 4 4 ())
      (List.replicate n (controls dms' [1 / 2, 1 / 4])) = .ok (s', ts) ∧ ts.length = n ∧ ∀ (i : ℕ) (t : Trace Stack), K ≤ i → ts[i]? = some t → ∀ x ∈ t.slopes, |x| < η := by
  obtain ⟨dms', h1, h2⟩ := whole_ok
  obtain ⟨K, hK⟩ := C164_stored wholeOptics whole_sound 4 wholeDms dms' wholeImat (wholeImat.map (List.map (10 / 9 * ·))) h1 (by simp [wholeDms])
    (by intro d hd; simp only [wholeDms, List.mem_cons, List.not_mem_nil, or_false] at hd; rcases hd with rfl | rfl <;> exact ⟨rfl, rfl⟩) h2 (wholeCmat.map (List.map (9 / 10 * ·))) rfl (by decide) rfl
    (by
      intro p q hp hq
      have hp3 : p < 3 := hp
      have hq3 : q < 3 := hq
      interval_cases p <;> interval_cases q <;> decide +kernel)
    [1 / 2, 1 / 4] rfl 1 100 4 (by norm_num) true false (fun h => nomatch h) (1 / 10)
    (by
      intro p hp
      have hp3 : p < 3 := hp
      interval_cases p <;> decide +kernel)
    (by intro g hg; simp only [List.mem_cons, List.not_mem_nil, or_false] at hg; rcases hg with rfl | rfl <;> norm_num)
    (fun l i _ => if l = 0 then 3 * i else 0) (fun p => if p = 0 then 3 else 0)
    (by
      have e : wholeOptics.uncorrected (fun l i _ => if l = 0 then 3 * i else 0) = [6, 0, 6, 0] := by decide +kernel
      rw [e]
      intro m hm
      have hm4 : m < 4 := hm
      interval_cases m <;> decide +kernel) η hη
  refine ⟨dms', h1, K, fun n => ?_⟩
  obtain ⟨s', ts, r1, r2, r3⟩ := hK n
  exact ⟨s', ts, r1, r2, fun i t hi ht => (r3 i t hi ht).2.2⟩

end Soapy.Props
