/-
Errors of reconstructors.
-/
import Verif.Lemmas.Sys
import Verif.Spec.Sys

namespace Soapy.Sys

open Soapy.Prog

theorem c_mvm : chk [.MVM] M0 C0 [] startAny U3 [.recon] = true := by decide +kernel

theorem c_sep : chk [.MVM_SeparateDMs] M0 C0 [(.attached, true)] startAny U3 [.recon] = true := by decide +kernel

theorem c_sep_none : chk [.MVM_SeparateDMs] M0 C0 [(.dms, false)] startAny U3 [.recon] = true := by decide +kernel

theorem c_la_unsaved : chk [.LearnAndApply] M0 C0 [(.senSub, true), (.saveLearn, false)] startAny U3 [.recon] = true := by decide +kernel

theorem c_la_named : chk [.LearnAndApply] M0 C0 [(.senSub, true), (.named, true)] startAny U3 [.recon] = true := by decide +kernel

theorem c_ltao_unsaved : chk [.LearnAndApplyLTAO] M0 C0 [(.senSub, true), (.attached, true), (.saveLearn, false)] startAny U3 [.recon] = true := by decide +kernel

theorem c_ltao_named : chk [.LearnAndApplyLTAO] M0 C0 [(.senSub, true), (.attached, true), (.named, true)] startAny U3 [.recon] = true := by decide +kernel

theorem c_ltao_none_unsaved : chk [.LearnAndApplyLTAO] M0 C0 [(.senSub, true), (.dms, false), (.saveLearn, false)] startAny U3 [.recon] = true := by decide +kernel

theorem c_ltao_none_named : chk [.LearnAndApplyLTAO] M0 C0 [(.senSub, true), (.dms, false), (.named, true)] startAny U3 [.recon] = true := by decide +kernel

theorem recon_any {cfg : Cfg} (hk : Known cfg) (h : Supported cfg) (us : List Use) (hus : ∀ u ∈ us, u ∈ U3) : ∀ e o, StoryAny cfg us (.err e o) → kind e ∉ [Kind.recon] := by
  obtain ⟨hm, hr, hc⟩ := hk
  simp only [List.mem_cons, List.not_mem_nil, or_false] at hr
  rcases hr with hr | hr | hr | hr
  · exact (chk_sound c_mvm (by simp [hr]) hm hc (by simp [base, h.counts, h.oneProcess, h.ownSensors]) us hus).2
  · have h1 := h.attached (Or.inl hr)
    by_cases hd : cfg.env .dms = true
    · exact (chk_sound c_sep (by simp [hr]) hm hc (by simp [base, h.counts, h.oneProcess, h.ownSensors, h1 hd]) us hus).2
    · rw [Bool.not_eq_true] at hd
      exact (chk_sound c_sep_none (by simp [hr]) hm hc (by simp [base, h.counts, h.oneProcess, h.ownSensors, hd]) us hus).2
  · have h1 := h.subaps (Or.inl hr)
    have h2 := h.learnt (Or.inl hr)
    by_cases hs : cfg.env .saveLearn = true
    · exact (chk_sound c_la_named (by simp [hr]) hm hc (by simp [base, h.counts, h.oneProcess, h.ownSensors, h1, h2 hs]) us hus).2
    · rw [Bool.not_eq_true] at hs
      exact (chk_sound c_la_unsaved (by simp [hr]) hm hc (by simp [base, h.counts, h.oneProcess, h.ownSensors, h1, hs]) us hus).2
  · have h1 := h.subaps (Or.inr hr)
    have h2 := h.learnt (Or.inr hr)
    have h3 := h.attached (Or.inr hr)
    by_cases hs : cfg.env .saveLearn = true <;> by_cases hd : cfg.env .dms = true
    · exact (chk_sound c_ltao_named (by simp [hr]) hm hc (by simp [base, h.counts, h.oneProcess, h.ownSensors, h1, h2 hs, h3 hd]) us hus).2
    · rw [Bool.not_eq_true] at hd
      exact (chk_sound c_ltao_none_named (by simp [hr]) hm hc (by simp [base, h.counts, h.oneProcess, h.ownSensors, h1, h2 hs, hd]) us hus).2
    · rw [Bool.not_eq_true] at hs
      exact (chk_sound c_ltao_unsaved (by simp [hr]) hm hc (by simp [base, h.counts, h.oneProcess, h.ownSensors, h1, hs, h3 hd]) us hus).2
    · rw [Bool.not_eq_true] at hs hd
      exact (chk_sound c_ltao_none_unsaved (by simp [hr]) hm hc (by simp [base, h.counts, h.oneProcess, h.ownSensors, h1, hs, hd]) us hus).2

end Soapy.Sys
