/-
Property theorems C10–C12: the control law.
-/
import Verif.Lemmas.Control
import Mathlib.Algebra.BigOperators.Group.Finset.Basic
import Mathlib.Algebra.BigOperators.Ring.Finset
import Mathlib.Tactic.FieldSimp
import Mathlib.Tactic.NormNum
import Mathlib.Tactic.Positivity
import Mathlib.Algebra.Order.BigOperators.Group.Finset

namespace Soapy.Props

open Soapy.Control Soapy.Vec

/-- Number of commands before those of mirror `k` (sum of the valid actuator counts of the mirrors
before it). -/
def firstCommand (dms : List DmCtl) (k : ℕ) : ℕ := ((dms.take k).map DmCtl.nValid).sum

/-- Total number of commands. -/
def nCommands (dms : List DmCtl) : ℕ := (dms.map DmCtl.nValid).sum

/-- **C11.** `apply_gain` on flat vectors of the right size never fails, keeps the size, and the new
command of actuator `j` of mirror `k` is computed from mirror `k`'s own gain and mode, its own previous
command and its own update only. -/
theorem C11_gain_per_mirror (dms : List DmCtl) (act new : List ℚ)
    (ha : act.length = nCommands dms) (hn : new.length = nCommands dms) :
    ∃ act', applyGain dms 0 act new = .ok act' ∧ act'.length = nCommands dms ∧
      ∀ k d, dms[k]? = some d → ∀ j, j < d.nValid →
        ∃ x y, act[firstCommand dms k + j]? = some x ∧ new[firstCommand dms k + j]? = some y ∧
          act'[firstCommand dms k + j]? =
            some (if d.closed then x + d.gain * y else d.gain * y + (1 - d.gain) * x) := by
  refine ⟨_, applyGain_flat dms act new ha hn, flatUpdate_length dms act new ha hn, ?_⟩
  intro k d hk j hj
  have hlt := offset_lt dms k j d hk hj
  have hx : act[firstCommand dms k + j]? = some (act[offset dms k + j]'(by rw [ha]; exact hlt)) :=
    List.getElem?_eq_getElem _
  have hy : new[firstCommand dms k + j]? = some (new[offset dms k + j]'(by rw [hn]; exact hlt)) :=
    List.getElem?_eq_getElem _
  exact ⟨_, _, hx, hy, flatUpdate_get dms act new ha hn k j d hk hj _ _ hx hy⟩

example : applyGain [⟨2, true, 1 / 2⟩, ⟨1, false, 1 / 4⟩] 0 [1, 2, 8] [10, 20, 4] = .ok [6, 12, 7] := by
  decide +kernel

/-- Every position of the command vector belongs to exactly one (mirror, actuator) pair. -/
theorem C11_blocks_partition (dms : List DmCtl) (p : ℕ) (hp : p < nCommands dms) :
    ∃! kj : ℕ × ℕ, ∃ d, dms[kj.1]? = some d ∧ kj.2 < d.nValid ∧ p = firstCommand dms kj.1 + kj.2 := by
  induction dms generalizing p with
  | nil => simp [nCommands] at hp
  | cons d ds ih =>
    by_cases h : p < d.nValid
    · refine ⟨(0, p), ⟨d, by simp, h, by simp [firstCommand]⟩, ?_⟩
      rintro ⟨k, j⟩ ⟨d', hk, hj, he⟩
      cases k with
      | zero => simp [firstCommand] at he; simp [he]
      | succ k => simp [firstCommand] at he; omega
    · have hp' : p - d.nValid < nCommands ds := by simp [nCommands] at hp ⊢; omega
      obtain ⟨⟨k, j⟩, ⟨d', hk, hj, he⟩, huniq⟩ := ih (p - d.nValid) hp'
      refine ⟨(k + 1, j), ⟨d', by simpa using hk, hj, by
        simp [firstCommand] at he ⊢; omega⟩, ?_⟩
      rintro ⟨k2, j2⟩ ⟨d2, hk2, hj2, he2⟩
      cases k2 with
      | zero => simp [firstCommand] at he2 hk2; subst hk2; simp at hj2; omega
      | succ k2 =>
        have := huniq (k2, j2) ⟨d2, by simpa using hk2, hj2, by
          simp [firstCommand] at he2 ⊢; omega⟩
        simp at this ⊢; exact this

/-- **C10 (closed loop).** From a fresh start, the command of a closed-loop actuator after frame `i` is the
sum of `gain ×` its updates of frames `0 … i`.  `u t` is the vector computed from the measurements of
frame `t`. -/
theorem C10_closed_integrates (dms : List DmCtl) (product : List ℚ → Except PyErr (List ℚ))
    (n : ℕ) (meas u : ℕ → List ℚ)
    (hp : ∀ t, t < n → product (meas t) = .ok (u t))
    (hu : ∀ t, t < n → (u t).length = nCommands dms) :
    ∃ r cmds, runReconstruct dms (nCommands dms) product ⟨none⟩ ((List.range n).map meas) = .ok (r, cmds) ∧
      cmds.length = n ∧
      ∀ k d, dms[k]? = some d → d.closed = true → ∀ j, j < d.nValid → ∀ i, i < n →
        ∃ c, cmds[i]? = some c ∧ c[firstCommand dms k + j]? =
          some (∑ t ∈ Finset.range (i + 1), d.gain * ((u t)[firstCommand dms k + j]?).getD 0) := by
  obtain ⟨r, hr⟩ := run_none dms product n meas u hp hu
  refine ⟨r, _, hr, by simp, ?_⟩
  intro k d hk hc j hj i hi
  refine ⟨iterUpdate dms (zeros (nCommands dms)) u (i + 1), by simp [hi, nCommands], ?_⟩
  have hlt := offset_lt dms k j d hk hj
  have key : ∀ m, m ≤ n → (iterUpdate dms (zeros (nCommands dms)) u m)[offset dms k + j]? =
      some (∑ t ∈ Finset.range m, d.gain * ((u t)[offset dms k + j]?).getD 0) := by
    intro m hm
    induction m with
    | zero => simp only [iterUpdate, zeros, Finset.range_zero, Finset.sum_empty]
              rw [List.getElem?_replicate, if_pos (by simpa [nCommands] using hlt)]
    | succ m ih =>
      have hl := hu m (by omega)
      have hy : (u m)[offset dms k + j]? = some ((u m)[offset dms k + j]'(by rw [hl]; exact hlt)) :=
        List.getElem?_eq_getElem _
      rw [iterUpdate, flatUpdate_get dms _ _ (iterUpdate_length dms _ u (by simp [zeros, nCommands]) n hu m (by omega))
        hl k j d hk hj _ _ (ih (by omega)) hy, Finset.sum_range_succ, hy]
      simp [hc]
  exact key (i + 1) (by omega)

/-- **C10 (open loop).** From a fresh start, the command of an open-loop actuator after frame `i` is the
exponentially weighted average `Σ gain (1-gain)^(i-t) u_t` of its updates. -/
theorem C10_open_averages (dms : List DmCtl) (product : List ℚ → Except PyErr (List ℚ))
    (n : ℕ) (meas u : ℕ → List ℚ)
    (hp : ∀ t, t < n → product (meas t) = .ok (u t))
    (hu : ∀ t, t < n → (u t).length = nCommands dms) :
    ∃ r cmds, runReconstruct dms (nCommands dms) product ⟨none⟩ ((List.range n).map meas) = .ok (r, cmds) ∧
      cmds.length = n ∧
      ∀ k d, dms[k]? = some d → d.closed = false → ∀ j, j < d.nValid → ∀ i, i < n →
        ∃ c, cmds[i]? = some c ∧ c[firstCommand dms k + j]? =
          some (∑ t ∈ Finset.range (i + 1),
            d.gain * (1 - d.gain) ^ (i - t) * ((u t)[firstCommand dms k + j]?).getD 0) := by
  obtain ⟨r, hr⟩ := run_none dms product n meas u hp hu
  refine ⟨r, _, hr, by simp, ?_⟩
  intro k d hk hc j hj i hi
  refine ⟨iterUpdate dms (zeros (nCommands dms)) u (i + 1), by simp [hi, nCommands], ?_⟩
  have hlt := offset_lt dms k j d hk hj
  have key : ∀ m, m ≤ n → (iterUpdate dms (zeros (nCommands dms)) u m)[offset dms k + j]? =
      some (∑ t ∈ Finset.range m,
        d.gain * (1 - d.gain) ^ (m - 1 - t) * ((u t)[offset dms k + j]?).getD 0) := by
    intro m hm
    induction m with
    | zero => simp only [iterUpdate, zeros, Finset.range_zero, Finset.sum_empty]
              rw [List.getElem?_replicate, if_pos (by simpa [nCommands] using hlt)]
    | succ m ih =>
      have hl := hu m (by omega)
      have hy : (u m)[offset dms k + j]? = some ((u m)[offset dms k + j]'(by rw [hl]; exact hlt)) :=
        List.getElem?_eq_getElem _
      rw [iterUpdate, flatUpdate_get dms _ _ (iterUpdate_length dms _ u (by simp [zeros, nCommands]) n hu m (by omega))
        hl k j d hk hj _ _ (ih (by omega)) hy, Finset.sum_range_succ, hy]
      simp only [hc, Bool.false_eq_true, if_false, Option.some.injEq, Nat.add_sub_cancel, Nat.sub_self,
        pow_zero, mul_one, Option.getD_some]
      rw [Finset.mul_sum, add_comm]
      congr 1
      apply Finset.sum_congr rfl
      intro t ht
      rw [Finset.mem_range] at ht
      have : m - t = (m - 1 - t) + 1 := by omega
      rw [this, pow_succ]; ring
  have := key (i + 1) (by omega)
  rw [Nat.add_sub_cancel] at this
  exact this

/-- **C10 (open loop is bounded).** With `0 ≤ gain ≤ 1` the command of an open-loop actuator never leaves an
interval that contains zero and all its updates. -/
theorem C10_open_bounded (dms : List DmCtl) (product : List ℚ → Except PyErr (List ℚ))
    (n : ℕ) (meas u : ℕ → List ℚ)
    (hp : ∀ t, t < n → product (meas t) = .ok (u t))
    (hu : ∀ t, t < n → (u t).length = nCommands dms)
    (k : ℕ) (d : DmCtl) (hk : dms[k]? = some d) (hc : d.closed = false)
    (hg0 : 0 ≤ d.gain) (hg1 : d.gain ≤ 1) (j : ℕ) (hj : j < d.nValid)
    (lo hi : ℚ) (hlo : lo ≤ 0) (hhi : 0 ≤ hi)
    (hb : ∀ t, t < n → ∀ y, (u t)[firstCommand dms k + j]? = some y → lo ≤ y ∧ y ≤ hi) :
    ∃ r cmds, runReconstruct dms (nCommands dms) product ⟨none⟩ ((List.range n).map meas) = .ok (r, cmds) ∧
      ∀ i, i < n → ∃ c x, cmds[i]? = some c ∧ c[firstCommand dms k + j]? = some x ∧ lo ≤ x ∧ x ≤ hi := by
  obtain ⟨r, hr⟩ := run_none dms product n meas u hp hu
  refine ⟨r, _, hr, ?_⟩
  intro i hi'
  have hlt := offset_lt dms k j d hk hj
  have key : ∀ m, m ≤ n → ∃ x, (iterUpdate dms (zeros (nCommands dms)) u m)[offset dms k + j]? = some x ∧
      lo ≤ x ∧ x ≤ hi := by
    intro m hm
    induction m with
    | zero =>
      refine ⟨0, ?_, hlo, hhi⟩
      simp only [iterUpdate, zeros]
      rw [List.getElem?_replicate, if_pos (by simpa [nCommands] using hlt)]
    | succ m ih =>
      obtain ⟨x, hx, hx1, hx2⟩ := ih (by omega)
      have hl := hu m (by omega)
      have hy : (u m)[offset dms k + j]? = some ((u m)[offset dms k + j]'(by rw [hl]; exact hlt)) :=
        List.getElem?_eq_getElem _
      obtain ⟨hy1, hy2⟩ := hb m (by omega) _ hy
      refine ⟨_, flatUpdate_get dms _ _ (iterUpdate_length dms _ u (by simp [zeros, nCommands]) n hu m (by omega))
        hl k j d hk hj _ _ hx hy, ?_, ?_⟩
      · simp only [hc, Bool.false_eq_true, if_false]; nlinarith
      · simp only [hc, Bool.false_eq_true, if_false]; nlinarith
  obtain ⟨x, hx, h1, h2⟩ := key (i + 1) (by omega)
  exact ⟨iterUpdate dms (zeros (nCommands dms)) u (i + 1), x, by simp [hi', nCommands], hx, h1, h2⟩

-- two frames, one closed and one open mirror
example : (runReconstruct [⟨1, true, 1 / 2⟩, ⟨1, false, 1 / 2⟩] 2 (fun m => .ok m) ⟨none⟩
    [[2, 4], [6, 8]]).map (·.2) = .ok [[1, 2], [4, 5]] := by decide +kernel

/-- **C12.** While no sensor is read (all measurements zero), a reconstructor with a control matrix keeps
the command of every closed-loop actuator and shrinks the one of every open-loop actuator by
`(1-gain)` per frame, for any number of frames. -/
theorem C12_no_read_no_motion (dms : List DmCtl) (cmat : List (List ℚ)) (act : List ℚ)
    (hrow : ∀ r ∈ cmat, r.length = nCommands dms) (ha : act.length = nCommands dms) (n : ℕ) :
    ∃ r cmds, runReconstruct dms (nCommands dms) (tdot (nCommands dms) cmat) ⟨some act⟩
        (List.replicate n (zeros cmat.length)) = .ok (r, cmds) ∧ cmds.length = n ∧
      ∀ k d, dms[k]? = some d → ∀ j, j < d.nValid → ∀ i, i < n → ∀ x,
        act[firstCommand dms k + j]? = some x →
        ∃ c, cmds[i]? = some c ∧ c[firstCommand dms k + j]? =
          some (if d.closed then x else (1 - d.gain) ^ (i + 1) * x) := by
  have hrep : List.replicate n (zeros cmat.length) = (List.range n).map fun _ => zeros cmat.length := by
    apply List.ext_getElem <;> simp
  have hrun := run_some dms (nCommands dms) (tdot (nCommands dms) cmat) n act
    (fun _ => zeros cmat.length) (fun _ => zeros (nCommands dms)) ha
    (fun _ _ => tdot_zero _ _ hrow) (fun _ _ => by simp [zeros, nCommands])
  rw [hrep, hrun]
  refine ⟨_, _, rfl, by simp, ?_⟩
  intro k d hk j hj i hi x hx
  have hlt := offset_lt dms k j d hk hj
  refine ⟨iterUpdate dms act (fun _ => zeros (nCommands dms)) (i + 1), by simp [hi], ?_⟩
  have key : ∀ m, m ≤ n → (iterUpdate dms act (fun _ => zeros (nCommands dms)) m)[offset dms k + j]? =
      some (if d.closed then x else (1 - d.gain) ^ m * x) := by
    intro m hm
    induction m with
    | zero => simp only [iterUpdate, pow_zero, one_mul, ite_self]; exact hx
    | succ m ih =>
      have hy : (zeros (nCommands dms))[offset dms k + j]? = some 0 := by
        unfold zeros
        rw [List.getElem?_replicate, if_pos (by simpa [nCommands] using hlt)]
      rw [iterUpdate, flatUpdate_get dms _ _ (iterUpdate_length dms act _ ha n
        (fun _ _ => by simp [zeros, nCommands]) m (by omega))
        (by simp [zeros, nCommands]) k j d hk hj _ _ (ih (by omega)) hy]
      cases hcl : d.closed
      · simp [pow_succ]; ring
      · simp
  exact key (i + 1) (by omega)

example : (runReconstruct [⟨1, true, 1 / 2⟩, ⟨1, false, 1 / 2⟩] 2 (tdot 2 [[1, 2], [3, 4], [5, 6]])
    ⟨some [8, 8]⟩ (List.replicate 2 (zeros 3))).map (·.2) = .ok [[8, 4], [8, 2]] := by decide +kernel

end Soapy.Props
