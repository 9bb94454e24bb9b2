/-
Errors of mirrors, with new or loaded matrices.
-/
import Verif.Lemmas.Sys
import Verif.Spec.Sys

namespace Soapy.Sys

open Soapy.Prog

theorem b_CustomShapes_true : chk R0 [.CustomShapes] C0 [(.dms, true), (.mirrorClosed, true)] startAny U2 [.mirror] = true := by decide +kernel

theorem b_CustomShapes_false : chk R0 [.CustomShapes] C0 [(.dms, true), (.mirrorClosed, false)] startAny U2 [.mirror] = true := by decide +kernel

theorem b_KarhunenLoeve_true : chk R0 [.KarhunenLoeve] C0 [(.dms, true), (.mirrorClosed, true), (.many, false)] startAny U2 [.mirror] = true := by decide +kernel

theorem b_KarhunenLoeve_false : chk R0 [.KarhunenLoeve] C0 [(.dms, true), (.mirrorClosed, false), (.many, false)] startAny U2 [.mirror] = true := by decide +kernel

theorem b_Zernike_true : chk R0 [.Zernike] C0 [(.dms, true), (.mirrorClosed, true)] startAny U2 [.mirror] = true := by decide +kernel

theorem b_Zernike_false : chk R0 [.Zernike] C0 [(.dms, true), (.mirrorClosed, false)] startAny U2 [.mirror] = true := by decide +kernel

theorem b_Piezo_true : chk R0 [.Piezo] C0 [(.dms, true), (.mirrorClosed, true), (.equalSize, false)] startAny U2 [.mirror] = true := by decide +kernel

theorem b_Piezo_false : chk R0 [.Piezo] C0 [(.dms, true), (.mirrorClosed, false), (.equalSize, false)] startAny U2 [.mirror] = true := by decide +kernel

theorem b_GaussStack_true : chk R0 [.GaussStack] C0 [(.dms, true), (.mirrorClosed, true)] startAny U2 [.mirror] = true := by decide +kernel

theorem b_GaussStack_false : chk R0 [.GaussStack] C0 [(.dms, true), (.mirrorClosed, false)] startAny U2 [.mirror] = true := by decide +kernel

theorem b_TT_true : chk R0 [.TT] C0 [(.dms, true), (.mirrorClosed, true)] startAny U2 [.mirror] = true := by decide +kernel

theorem b_TT_false : chk R0 [.TT] C0 [(.dms, true), (.mirrorClosed, false)] startAny U2 [.mirror] = true := by decide +kernel

theorem b_FastPiezo_true : chk R0 [.FastPiezo] C0 [(.dms, true), (.mirrorClosed, true)] startAny U2 [.mirror] = true := by decide +kernel

theorem b_FastPiezo_false : chk R0 [.FastPiezo] C0 [(.dms, true), (.mirrorClosed, false)] startAny U2 [.mirror] = true := by decide +kernel

theorem b_none : chk R0 M0 C0 [(.dms, false)] startAny U2 [.mirror] = true := by decide +kernel

theorem mirror_any {cfg : Cfg} (hk : Known cfg) (h : Supported cfg) (us : List Use) (hus : ∀ u ∈ us, u ∈ U2) : ∀ e o, StoryAny cfg us (.err e o) → kind e ∉ [Kind.mirror] := by
  obtain ⟨hm, hr, hc⟩ := hk
  by_cases hd : cfg.env .dms = true
  · have h1 := h.fewModes hd
    have h2 := h.unequal hd
    simp only [List.mem_cons, List.not_mem_nil, or_false] at hm
    cases hmc : cfg.env .mirrorClosed with
    | false =>
      rcases hm with hm | hm | hm | hm | hm | hm | hm
      · exact (chk_sound b_CustomShapes_false hr (by simp [hm]) hc (by simp [base, h.counts, h.oneProcess, h.ownSensors, hd, hmc]) us hus).2
      · exact (chk_sound b_KarhunenLoeve_false hr (by simp [hm]) hc (by simp [base, h.counts, h.oneProcess, h.ownSensors, hd, hmc, h1 hm]) us hus).2
      · exact (chk_sound b_Zernike_false hr (by simp [hm]) hc (by simp [base, h.counts, h.oneProcess, h.ownSensors, hd, hmc]) us hus).2
      · exact (chk_sound b_Piezo_false hr (by simp [hm]) hc (by simp [base, h.counts, h.oneProcess, h.ownSensors, hd, hmc, h2 hm]) us hus).2
      · exact (chk_sound b_GaussStack_false hr (by simp [hm]) hc (by simp [base, h.counts, h.oneProcess, h.ownSensors, hd, hmc]) us hus).2
      · exact (chk_sound b_TT_false hr (by simp [hm]) hc (by simp [base, h.counts, h.oneProcess, h.ownSensors, hd, hmc]) us hus).2
      · exact (chk_sound b_FastPiezo_false hr (by simp [hm]) hc (by simp [base, h.counts, h.oneProcess, h.ownSensors, hd, hmc]) us hus).2
    | true =>
      rcases hm with hm | hm | hm | hm | hm | hm | hm
      · exact (chk_sound b_CustomShapes_true hr (by simp [hm]) hc (by simp [base, h.counts, h.oneProcess, h.ownSensors, hd, hmc]) us hus).2
      · exact (chk_sound b_KarhunenLoeve_true hr (by simp [hm]) hc (by simp [base, h.counts, h.oneProcess, h.ownSensors, hd, hmc, h1 hm]) us hus).2
      · exact (chk_sound b_Zernike_true hr (by simp [hm]) hc (by simp [base, h.counts, h.oneProcess, h.ownSensors, hd, hmc]) us hus).2
      · exact (chk_sound b_Piezo_true hr (by simp [hm]) hc (by simp [base, h.counts, h.oneProcess, h.ownSensors, hd, hmc, h2 hm]) us hus).2
      · exact (chk_sound b_GaussStack_true hr (by simp [hm]) hc (by simp [base, h.counts, h.oneProcess, h.ownSensors, hd, hmc]) us hus).2
      · exact (chk_sound b_TT_true hr (by simp [hm]) hc (by simp [base, h.counts, h.oneProcess, h.ownSensors, hd, hmc]) us hus).2
      · exact (chk_sound b_FastPiezo_true hr (by simp [hm]) hc (by simp [base, h.counts, h.oneProcess, h.ownSensors, hd, hmc]) us hus).2
  · rw [Bool.not_eq_true] at hd
    exact (chk_sound b_none hr hm hc (by simp [base, h.counts, h.oneProcess, h.ownSensors, hd]) us hus).2

end Soapy.Sys
