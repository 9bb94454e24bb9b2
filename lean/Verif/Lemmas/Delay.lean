/-
Helper lemmas about the delay buffer model.
-/
import Verif.Model.Delay
import Verif.Spec.Delay
import Mathlib.Tactic.Linarith
import Mathlib.Data.List.Induction
import Mathlib.Data.List.Nodup

namespace Soapy.Delay

variable {α : Type*}

theorem popLoop_eq (k : ℕ) (buf : List α) (r : Option α) :
    popLoop k buf r =
      if k ≤ buf.length then .ok (buf.drop k, if k = 0 then r else buf[k - 1]?)
      else .error .indexError := by
  induction k generalizing buf r with
  | zero => simp [popLoop]
  | succ k ih =>
    cases buf with
    | nil => simp [popLoop]
    | cons x buf =>
      simp only [popLoop, ih, List.length_cons, Nat.add_le_add_iff_right, List.drop_succ_cons,
        Nat.add_one_sub_one]
      split
      · cases k with
        | zero => simp
        | succ k => simp
      · rfl

theorem delay_nat (z : α → α) (buf : List α) (v : α) (c : ℕ) :
    delay z buf v (c : ℤ) =
      if buf.length < c then .ok (buf ++ [v], z v)
      else .ok ((buf ++ [v]).drop (buf.length + 1 - c),
            ((buf ++ [v])[buf.length - c]?).getD v) := by
  unfold delay
  simp only [List.length_append, List.length_cons, List.length_nil, zero_add, Nat.cast_add,
    Nat.cast_one]
  by_cases h : buf.length < c
  · rw [if_pos (by omega), if_pos h]
  · rw [if_neg (by omega), if_neg h]
    have hk : ((buf.length : ℤ) + 1 - (c : ℤ)).toNat = buf.length + 1 - c := by omega
    rw [hk, popLoop_eq, if_pos (by simp), if_neg (by omega)]
    have h1 : buf.length + 1 - c - 1 = buf.length - c := by omega
    rw [h1]
    have hlt : buf.length - c < (buf ++ [v]).length := by simp; omega
    rw [List.getElem?_eq_getElem hlt]
    simp

/-- Number of inputs already gone (emitted or skipped) after the calls `pre`. -/
def gone : List (α × ℕ) → ℕ
  | pre => (pre.zipIdx.map fun p => p.2 + 1 - p.1.2).foldl max 0

theorem gone_snoc (pre : List (α × ℕ)) (v : α) (c : ℕ) :
    gone (pre ++ [(v, c)]) = max (gone pre) (pre.length + 1 - c) := by
  simp [gone, List.zipIdx_append]

theorem gone_nil : gone ([] : List (α × ℕ)) = 0 := rfl

theorem gone_le (pre : List (α × ℕ)) : gone pre ≤ pre.length := by
  induction pre using List.reverseRecOn with
  | nil => simp [gone]
  | append_singleton pre p ih =>
    obtain ⟨v, c⟩ := p
    rw [gone_snoc]; simp; omega

/-- `gone` is the least bound above all "age" indices. -/
theorem gone_lt_iff (pre : List (α × ℕ)) (m : ℕ) :
    gone pre < m + 1 ↔ ∀ i, i < pre.length → ∀ ci, (pre.map Prod.snd)[i]? = some ci → i < m + ci := by
  induction pre using List.reverseRecOn with
  | nil => simp [gone]
  | append_singleton pre p ih =>
    obtain ⟨v, c⟩ := p
    rw [gone_snoc, max_lt_iff, ih]
    constructor
    · rintro ⟨h1, h2⟩ i hi ci hci
      by_cases hlt : i < pre.length
      · apply h1 i hlt ci
        rw [List.map_append, List.getElem?_append_left (by simpa using hlt)] at hci
        exact hci
      · have : i = pre.length := by simp at hi; omega
        subst this
        simp at hci
        omega
    · intro h
      refine ⟨fun i hi ci hci => h i (by simp; omega) ci ?_, ?_⟩
      · rw [List.map_append, List.getElem?_append_left (by simpa using hi)]
        exact hci
      · have := h pre.length (by simp) c (by simp)
        omega

/-- The calls as the model sees them (delays are Python ints). -/
def asCalls (calls : List (α × ℕ)) : List (α × ℤ) := calls.map fun p => (p.1, (p.2 : ℤ))

/-- Invariant: the buffer is the part of the inputs that is not yet gone; every single call. -/
theorem delay_inv (z : α → α) (pre : List (α × ℕ)) (v : α) (c : ℕ) :
    delay z ((pre.map Prod.fst).drop (gone pre)) v (c : ℤ) =
      .ok (((pre ++ [(v, c)]).map Prod.fst).drop (gone (pre ++ [(v, c)])),
        if pre.length < c + gone pre then z v
        else ((pre ++ [(v, c)]).map Prod.fst)[pre.length - c]?.getD v) := by
  have hg := gone_le pre
  rw [delay_nat, gone_snoc]
  have hlen : ((pre.map Prod.fst).drop (gone pre)).length = pre.length - gone pre := by simp
  rw [hlen]
  have hcat : (pre.map Prod.fst).drop (gone pre) ++ [v]
      = ((pre ++ [(v, c)]).map Prod.fst).drop (gone pre) := by
    rw [List.map_append, List.drop_append_of_le_length (by simpa using hg)]; simp
  rw [hcat]
  by_cases h : pre.length < c + gone pre
  · rw [if_pos (by omega), if_pos h]
    have : max (gone pre) (pre.length + 1 - c) = gone pre := by omega
    rw [this]
  · rw [if_neg (by omega), if_neg h]
    have hm : max (gone pre) (pre.length + 1 - c) = gone pre + (pre.length - gone pre + 1 - c) := by
      omega
    rw [hm, List.drop_drop, List.getElem?_drop]
    have : gone pre + (pre.length - gone pre - c) = pre.length - c := by omega
    rw [this]

theorem runDelay_inv (z : α → α) (pre calls : List (α × ℕ)) :
    ∃ outs, runDelay z ((pre.map Prod.fst).drop (gone pre)) (asCalls calls) =
        .ok (((pre ++ calls).map Prod.fst).drop (gone (pre ++ calls)), outs) ∧
      outs.length = calls.length ∧
      ∀ n, n < calls.length → outs[n]? =
        DelaySpec.varDelay z ((pre ++ calls).map Prod.fst) ((pre ++ calls).map Prod.snd)
          (pre.length + n) := by
  induction calls generalizing pre with
  | nil => exact ⟨[], by simp [runDelay, asCalls], rfl, by simp⟩
  | cons p calls ih =>
    obtain ⟨v, c⟩ := p
    obtain ⟨outs, h1, h2, h3⟩ := ih (pre ++ [(v, c)])
    have happ : pre ++ [(v, c)] ++ calls = pre ++ (v, c) :: calls := by simp
    rw [happ] at h1 h3
    refine ⟨(if pre.length < c + gone pre then z v
        else ((pre ++ [(v, c)]).map Prod.fst)[pre.length - c]?.getD v) :: outs,
      ?_, by simp [h2], ?_⟩
    · simp only [asCalls, List.map_cons, runDelay, delay_inv]
      have h1' := h1
      simp only [asCalls] at h1'
      rw [h1']
    · intro n hn
      cases n with
      | succ n =>
        have := h3 n (by simpa using hn)
        simp only [List.length_append, List.length_cons, List.length_nil] at this
        rw [List.getElem?_cons_succ, this]
        congr 1; omega
      | zero =>
        simp only [List.getElem?_cons_zero, DelaySpec.varDelay, Nat.add_zero]
        have hc : ((pre ++ (v, c) :: calls).map Prod.snd)[pre.length]? = some c := by simp
        have hv : ((pre ++ (v, c) :: calls).map Prod.fst)[pre.length]? = some v := by simp
        rw [hc]; dsimp only
        have hcond : (¬ pre.length < c + gone pre) ↔
            (c ≤ pre.length ∧ ∀ i, i < pre.length → ∀ ci,
              ((pre ++ (v, c) :: calls).map Prod.snd)[i]? = some ci → i + c < pre.length + ci) := by
          constructor
          · intro h
            have hcl : c ≤ pre.length := by omega
            refine ⟨hcl, fun i hi ci hci => ?_⟩
            have hg : gone pre < (pre.length - c) + 1 := by omega
            rw [gone_lt_iff] at hg
            rw [List.map_append, List.getElem?_append_left (by simpa using hi)] at hci
            have := hg i hi ci hci
            omega
          · rintro ⟨hcl, hall⟩
            have hg : gone pre < (pre.length - c) + 1 := by
              rw [gone_lt_iff]
              intro i hi ci hci
              have := hall i hi ci (by
                rw [List.map_append, List.getElem?_append_left (by simpa using hi)]; exact hci)
              omega
            omega
        by_cases h : pre.length < c + gone pre
        · rw [if_pos h, if_neg (fun hh => (hcond.mpr hh) h), hv]; rfl
        · rw [if_neg h, if_pos (hcond.mp h)]
          have hlt : pre.length - c < ((pre ++ (v, c) :: calls).map Prod.fst).length := by
            simp; omega
          have hlt' : pre.length - c < ((pre ++ [(v, c)]).map Prod.fst).length := by
            simp; omega
          rw [List.getElem?_eq_getElem hlt, List.getElem?_eq_getElem hlt']
          simp only [Option.getD_some, Option.some.injEq]
          have e : (pre ++ (v, c) :: calls).map Prod.fst
              = (pre ++ [(v, c)]).map Prod.fst ++ calls.map Prod.fst := by simp
          simp only [e]
          rw [List.getElem_append_left hlt']

/-! ### Object level -/

variable {V : Type*}

/-- Well-formedness of the heap: the live array is not waiting in the buffer. -/
structure HState.Inv (s : HState V) : Prop where
  live_notin : s.live ∉ s.buf
  nodup : s.buf.Nodup
  live_lt : s.live < s.next
  buf_lt : ∀ r ∈ s.buf, r < s.next

theorem HState.inv_write {s : HState V} (h : s.Inv) (r : ℕ) (v : V) : (s.write r v).Inv :=
  ⟨h.live_notin, h.nodup, h.live_lt, h.buf_lt⟩

theorem HState.map_write_of_notin (s : HState V) (r : ℕ) (v : V) (l : List ℕ) (h : r ∉ l) :
    l.map (s.write r v).heap = l.map s.heap := by
  apply List.map_congr_left
  intro a ha
  simp only [HState.write]
  rw [if_neg]
  rintro rfl; exact h ha

theorem HState.write_self (s : HState V) (r : ℕ) (v : V) : (s.write r v).heap r = v := by
  simp [HState.write]

/-- One delay call on objects does to the contents what `delay` does to values, and keeps `Inv`. -/
theorem HState.delayCall_spec (z : V → V) (s : HState V) (h : s.Inv) (c : ℕ) :
    ∃ s', s.delayCall z (c : ℤ) = .ok s' ∧ s'.Inv ∧
      delay z (s.buf.map s.heap) (s.heap s.live) (c : ℤ) = .ok (s'.buf.map s'.heap, s'.heap s'.live) := by
  rw [delay_nat]
  simp only [List.length_map, HState.delayCall, List.length_append, List.length_cons,
    List.length_nil, zero_add, Nat.cast_add, Nat.cast_one]
  have hnext : s.next ∉ s.buf ++ [s.live] := by
    intro hm
    rcases List.mem_append.mp hm with hm | hm
    · exact absurd (h.buf_lt _ hm) (lt_irrefl _)
    · simp at hm; exact absurd h.live_lt (by omega)
  have hnd : (s.buf ++ [s.live]).Nodup := by
    rw [List.nodup_append]
    refine ⟨h.nodup, by simp, ?_⟩
    intro a ha b hb
    simp at hb; subst hb
    rintro rfl; exact h.live_notin ha
  have hlt : ∀ r ∈ s.buf ++ [s.live], r < s.next := by
    intro r hr
    rcases List.mem_append.mp hr with hr | hr
    · exact h.buf_lt _ hr
    · simp at hr; subst hr; exact h.live_lt
  by_cases hc : s.buf.length < c
  · rw [if_pos (by omega), if_pos hc]
    refine ⟨_, rfl, ⟨hnext, hnd, Nat.lt_succ_self _, fun r hr => Nat.lt_succ_of_lt (hlt r hr)⟩, ?_⟩
    dsimp only
    rw [HState.map_write_of_notin _ _ _ _ hnext, HState.write_self]
    simp
  · rw [if_neg (by omega), if_neg hc]
    have hk : ((s.buf.length : ℤ) + 1 - (c : ℤ)).toNat = s.buf.length + 1 - c := by omega
    rw [hk, popLoop_eq, if_pos (by simp), if_neg (by omega)]
    have h1 : s.buf.length + 1 - c - 1 = s.buf.length - c := by omega
    rw [h1]
    have hidx : s.buf.length - c < (s.buf ++ [s.live]).length := by simp; omega
    rw [List.getElem?_eq_getElem hidx]
    refine ⟨_, rfl, ⟨?_, ?_, hlt _ (List.getElem_mem _), ?_⟩, ?_⟩
    · dsimp only
      intro hm
      rw [List.mem_iff_getElem] at hm
      obtain ⟨j, hj, he⟩ := hm
      rw [List.getElem_drop] at he
      have := (List.Nodup.getElem_inj_iff hnd).mp he
      omega
    · exact hnd.sublist (List.drop_sublist _ _)
    · intro r hr
      exact hlt r (List.mem_of_mem_drop hr)
    · dsimp only
      have e : s.buf.map s.heap ++ [s.heap s.live] = (s.buf ++ [s.live]).map s.heap := by simp
      rw [e, List.map_drop, List.getElem?_map, List.getElem?_eq_getElem hidx]
      simp

/-- The frames of a list of operations: (reconstructed commands, delay). -/
def framesOf : List (HOp V) → List (V × ℤ)
  | [] => []
  | .frame v c :: ops => (v, c) :: framesOf ops
  | .reset :: ops => framesOf ops
  | .makeIMat _ :: ops => framesOf ops

theorem HState.run_refines (z : V → V) (ops : List (HOp V)) (s : HState V) (h : s.Inv)
    (hc : ∀ p ∈ framesOf ops, 0 ≤ p.2) :
    ∃ s' os, s.run z ops = .ok (s', os) ∧ s'.Inv ∧
      runDelay z (s.buf.map s.heap) (framesOf ops) = .ok (s'.buf.map s'.heap, os) := by
  induction ops generalizing s with
  | nil => exact ⟨s, [], rfl, h, rfl⟩
  | cons op ops ih =>
    cases op with
    | frame v c =>
      have hc0 : 0 ≤ c := hc (v, c) (by simp [framesOf])
      obtain ⟨n, rfl⟩ := Int.eq_ofNat_of_zero_le hc0
      obtain ⟨s1, hs1, hinv1, hd⟩ := (s.write s.live v).delayCall_spec z (HState.inv_write h _ _) n
      obtain ⟨s2, os, hs2, hinv2, hr⟩ := ih s1 hinv1 (fun p hp => hc p (by simp [framesOf, hp]))
      refine ⟨s2, s1.heap s1.live :: os, ?_, hinv2, ?_⟩
      · simp only [HState.run, HState.step, hs1, hs2]
      · simp only [framesOf, runDelay]
        have hb : (s.write s.live v).buf = s.buf := rfl
        have hl : (s.write s.live v).live = s.live := rfl
        rw [hb, hl, HState.map_write_of_notin _ _ _ _ h.live_notin, HState.write_self] at hd
        rw [hd]; dsimp only
        rw [hr]
    | reset =>
      obtain ⟨s2, os, hs2, hinv2, hr⟩ := ih (s.write s.live (z (s.heap s.live)))
        (HState.inv_write h _ _) (fun p hp => hc p (by simpa [framesOf] using hp))
      refine ⟨s2, os, ?_, hinv2, ?_⟩
      · simp only [HState.run, HState.step, hs2]
      · have hb : (s.write s.live (z (s.heap s.live))).buf = s.buf := rfl
        rw [hb, HState.map_write_of_notin _ _ _ _ h.live_notin] at hr
        exact hr
    | makeIMat w =>
      have hnext : s.next ∉ s.buf := fun hm => absurd (h.buf_lt _ hm) (lt_irrefl _)
      obtain ⟨s2, os, hs2, hinv2, hr⟩ := ih { s.write s.next w with next := s.next + 1, live := s.next }
        ⟨hnext, h.nodup, Nat.lt_succ_self _, fun r hr => Nat.lt_succ_of_lt (h.buf_lt r hr)⟩
        (fun p hp => hc p (by simpa [framesOf] using hp))
      refine ⟨s2, os, ?_, hinv2, ?_⟩
      · simp only [HState.run, HState.step, hs2]
      · dsimp only at hr
        have hb : (s.write s.next w).buf = s.buf := rfl
        rw [hb, HState.map_write_of_notin _ _ _ _ hnext] at hr
        exact hr

theorem HState.init_inv (w : V) : (HState.init w).Inv :=
  ⟨by simp [HState.init], by simp [HState.init], by simp [HState.init], by simp [HState.init]⟩

end Soapy.Delay
