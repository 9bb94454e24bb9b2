/-
Errors of cameras, and errors that depend on single settings.
-/
import Verif.Lemmas.Sys
import Verif.Spec.Sys

namespace Soapy.Sys

open Soapy.Prog

theorem d_psf_geo : chk R0 M0 [.PSFCamera] [(.sci, true), (.instField, false), (.phys, false)] startAny U3 [.camera] = true := by decide +kernel

theorem d_psf_unsaved : chk R0 M0 [.PSFCamera] [(.sci, true), (.instField, false), (.sciRes, false)] startAny U3 [.camera] = true := by decide +kernel

theorem d_fibre_geo : chk R0 M0 [.singleModeFibre] [(.sci, true), (.instField, false), (.phys, false)] startAny U3 [.camera] = true := by decide +kernel

theorem d_fibre_unsaved : chk R0 M0 [.singleModeFibre] [(.sci, true), (.instField, false), (.sciRes, false)] startAny U3 [.camera] = true := by decide +kernel

theorem d_none : chk R0 M0 C0 [(.sci, false)] startAny U3 [.camera, .inst] = true := by decide +kernel

theorem d_gui : chk R0 M0 C0 [(.gui, true)] startAny U3 [.gui] = true := by decide +kernel

theorem d_nogui : chk R0 M0 C0 [(.gui, false)] startAny U3 [.gui] = true := by decide +kernel

theorem d_named : chk R0 M0 C0 [(.named, true)] startAny U3 [.name] = true := by decide +kernel

theorem d_unnamed : chk R0 M0 C0 [(.named, false)] startAny U3 [.name] = true := by decide +kernel

theorem d_strehl : chk R0 M0 C0 [(.sci, true)] startAny U3 [.strehl] = true := by decide +kernel

theorem d_strehl_unsaved : chk R0 M0 C0 [(.sci, false), (.saveWfe, false), (.saveStrehl, false)] startAny U3 [.strehl] = true := by decide +kernel

theorem d_strehl_unnamed : chk R0 M0 C0 [(.sci, false), (.named, false)] startAny U3 [.strehl] = true := by decide +kernel

theorem d_inst : chk R0 M0 C0 [(.sci, true), (.instPsf, true)] startAny U3 [.inst] = true := by decide +kernel

theorem d_noinst : chk R0 M0 C0 [(.instPsf, false)] startAny U3 [.inst] = true := by decide +kernel

theorem d_lgs_unsaved : chk R0 M0 C0 [(.saveLgs, false)] startAny U3 [.lgs] = true := by decide +kernel

theorem d_lgs_down : chk R0 M0 C0 [(.uplink, false)] startAny U3 [.lgs] = true := by decide +kernel

theorem d_lgs_up : chk R0 M0 C0 [(.uplink, true), (.senLgs, true)] startAny U3 [.lgs] = true := by decide +kernel

/-! Only that there is an execution. -/

theorem d_exists_new : chk R0 M0 C0 [] (start true) U3 [] = true := by decide +kernel

theorem d_exists_any : chk R0 M0 C0 [] (start false) U3 [] = true := by decide +kernel

theorem story_exists {cfg : Cfg} (hk : Known cfg) (h : Supported cfg) (f : Bool) (us : List Use) (hus : ∀ u ∈ us, u ∈ U3) : ∃ res, Story cfg f us res := by
  obtain ⟨hm, hr, hc⟩ := hk
  cases f with
  | true => exact (chk_sound d_exists_new hr hm hc (by simp [base, h.counts, h.oneProcess, h.ownSensors]) us hus).1
  | false => exact (chk_sound d_exists_any hr hm hc (by simp [base, h.counts, h.oneProcess, h.ownSensors]) us hus).1

theorem other_any {cfg : Cfg} (hk : Known cfg) (h : Supported cfg) (us : List Use) (hus : ∀ u ∈ us, u ∈ U3) (e : E) (o : Obj Att) (hs : StoryAny cfg us (.err e o)) : kind e = .mirror ∨ kind e = .recon := by
  obtain ⟨hm, hr, hc⟩ := hk
  have b : ∀ {l : List (Cond × Bool)} {ks : List Kind}, chk R0 M0 C0 l startAny U3 ks = true → (∀ p ∈ l, cfg.env p.1 = p.2) → kind e ∉ ks := fun hx hl => (chk_sound hx hr hm hc (fun p hp => by
    rcases List.mem_append.1 hp with hp | hp
    · exact hl p hp
    · simp only [base, List.mem_cons, List.not_mem_nil, or_false] at hp
      rcases hp with rfl | rfl | rfl
      · exact h.counts
      · exact h.oneProcess
      · exact h.ownSensors) us hus).2 e o hs
  have hcam : kind e ≠ .camera := by
    cases hsci : cfg.env .sci with
    | false => have := b d_none (by simp [hsci]); simp at this; exact this.1
    | true =>
      have hf := h.noField hsci
      have hres := h.noResidual hsci
      have hor : cfg.env .phys = false ∨ cfg.env .sciRes = false := by
        cases hx : cfg.env .sciRes with
        | false => exact Or.inr rfl
        | true => exact Or.inl (hres hx)
      simp only [List.mem_cons, List.not_mem_nil, or_false] at hc
      rcases hc with hc | hc <;> rcases hor with ho | ho
      · simpa using (chk_sound d_psf_geo hr hm (by simp [hc]) (by simp [base, h.counts, h.oneProcess, h.ownSensors, hsci, hf, ho]) us hus).2 e o hs
      · simpa using (chk_sound d_psf_unsaved hr hm (by simp [hc]) (by simp [base, h.counts, h.oneProcess, h.ownSensors, hsci, hf, ho]) us hus).2 e o hs
      · simpa using (chk_sound d_fibre_geo hr hm (by simp [hc]) (by simp [base, h.counts, h.oneProcess, h.ownSensors, hsci, hf, ho]) us hus).2 e o hs
      · simpa using (chk_sound d_fibre_unsaved hr hm (by simp [hc]) (by simp [base, h.counts, h.oneProcess, h.ownSensors, hsci, hf, ho]) us hus).2 e o hs
  have hgui : kind e ≠ .gui := by
    cases hg : cfg.env .gui with
    | true => simpa using b d_gui (by simp [hg])
    | false => simpa using b d_nogui (by simp [hg])
  have hname : kind e ≠ .name := by
    cases hg : cfg.env .named with
    | true => simpa using b d_named (by simp [hg])
    | false => simpa using b d_unnamed (by simp [hg])
  have hstr : kind e ≠ .strehl := by
    cases hsci : cfg.env .sci with
    | true => simpa using b d_strehl (by simp [hsci])
    | false =>
      cases hg : cfg.env .named with
      | true => simpa using b d_strehl_unsaved (by simp [hsci, h.wfe hg hsci, h.strehl hg hsci])
      | false => simpa using b d_strehl_unnamed (by simp [hsci, hg])
  have hinst : kind e ≠ .inst := by
    cases hsci : cfg.env .sci with
    | false => have := b d_none (by simp [hsci]); simp at this; exact this.2
    | true =>
      cases hg : cfg.env .instPsf with
      | true => simpa using b d_inst (by simp [hsci, hg])
      | false => simpa using b d_noinst (by simp [hg])
  have hlgs : kind e ≠ .lgs := by
    cases hg : cfg.env .saveLgs with
    | false => simpa using b d_lgs_unsaved (by simp [hg])
    | true =>
      cases hu : cfg.env .uplink with
      | false => simpa using b d_lgs_down (by simp [hu])
      | true => simpa using b d_lgs_up (by simp [hu, h.laser hg hu])
  cases hk : kind e <;> simp_all

end Soapy.Sys
