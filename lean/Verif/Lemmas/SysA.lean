/-
Errors of mirrors, with new matrices.  Each `decide` is a computation by the kernel.
-/
import Verif.Lemmas.Sys
import Verif.Spec.Sys

namespace Soapy.Sys

open Soapy.Prog

theorem a_CustomShapes : chk R0 [.CustomShapes] C0 [(.dms, true)] (start true) U1 [.mirror] = true := by decide +kernel

theorem a_KarhunenLoeve : chk R0 [.KarhunenLoeve] C0 [(.dms, true), (.many, false)] (start true) U1 [.mirror] = true := by decide +kernel

theorem a_Zernike : chk R0 [.Zernike] C0 [(.dms, true)] (start true) U1 [.mirror] = true := by decide +kernel

theorem a_Piezo : chk R0 [.Piezo] C0 [(.dms, true), (.equalSize, false)] (start true) U1 [.mirror] = true := by decide +kernel

theorem a_GaussStack : chk R0 [.GaussStack] C0 [(.dms, true)] (start true) U1 [.mirror] = true := by decide +kernel

theorem a_TT : chk R0 [.TT] C0 [(.dms, true)] (start true) U1 [.mirror] = true := by decide +kernel

theorem a_FastPiezo : chk R0 [.FastPiezo] C0 [(.dms, true)] (start true) U1 [.mirror] = true := by decide +kernel

theorem a_none : chk R0 M0 C0 [(.dms, false)] (start true) U1 [.mirror] = true := by decide +kernel

theorem mirror_new {cfg : Cfg} (hk : Known cfg) (h : Supported cfg) (us : List Use) (hus : ∀ u ∈ us, u ∈ U1) :
    (∃ res, Story cfg true us res) ∧ ∀ e o, Story cfg true us (.err e o) → kind e ∉ [Kind.mirror] := by
  obtain ⟨hm, hr, hc⟩ := hk
  by_cases hd : cfg.env .dms = true
  · have h1 := h.fewModes hd
    have h2 := h.unequal hd
    simp only [List.mem_cons, List.not_mem_nil, or_false] at hm
    rcases hm with hm | hm | hm | hm | hm | hm | hm
    · exact chk_sound a_CustomShapes hr (by simp [hm]) hc (by simp [base, h.counts, h.oneProcess, h.ownSensors, hd]) us hus
    · exact chk_sound a_KarhunenLoeve hr (by simp [hm]) hc (by simp [base, h.counts, h.oneProcess, h.ownSensors, hd, h1 hm]) us hus
    · exact chk_sound a_Zernike hr (by simp [hm]) hc (by simp [base, h.counts, h.oneProcess, h.ownSensors, hd]) us hus
    · exact chk_sound a_Piezo hr (by simp [hm]) hc (by simp [base, h.counts, h.oneProcess, h.ownSensors, hd, h2 hm]) us hus
    · exact chk_sound a_GaussStack hr (by simp [hm]) hc (by simp [base, h.counts, h.oneProcess, h.ownSensors, hd]) us hus
    · exact chk_sound a_TT hr (by simp [hm]) hc (by simp [base, h.counts, h.oneProcess, h.ownSensors, hd]) us hus
    · exact chk_sound a_FastPiezo hr (by simp [hm]) hc (by simp [base, h.counts, h.oneProcess, h.ownSensors, hd]) us hus
  · rw [Bool.not_eq_true] at hd
    exact chk_sound a_none hr hm hc (by simp [base, h.counts, h.oneProcess, h.ownSensors, hd]) us hus

end Soapy.Sys
