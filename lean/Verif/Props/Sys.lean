/-
C90, C91: which simulations can be made, calibrated, run, reset and saved.
-/
import Verif.Lemmas.SysA
import Verif.Lemmas.SysB
import Verif.Lemmas.SysC
import Verif.Lemmas.SysD

namespace Soapy.Props

open Soapy.Prog Soapy.Sys

theorem mem_U1 {us : List Use} (h : ∀ u ∈ us, u ≠ .runWfs ∧ u ≠ .again false) : ∀ u ∈ us, u ∈ U1 := by
  intro u hu
  obtain ⟨h1, h2⟩ := h u hu
  cases u with
  | makeIMat f => cases f <;> simp [U1]
  | again f => cases f <;> simp_all [U1]
  | _ => simp_all [U1]

theorem mem_U2 {us : List Use} (h : ∀ u ∈ us, u ≠ .runWfs ∧ u ≠ .reset) : ∀ u ∈ us, u ∈ U2 := by
  intro u hu
  obtain ⟨h1, h2⟩ := h u hu
  cases u with
  | makeIMat f => cases f <;> simp [U2]
  | again f => cases f <;> simp [U2]
  | _ => simp_all [U2]

theorem U1_U3 {u : Use} (h : u ∈ U1) : u ∈ U3 := by
  simp only [U1, U2, U3, List.mem_cons, List.not_mem_nil, or_false] at h ⊢
  tauto

theorem U2_U3 {u : Use} (h : u ∈ U2) : u ∈ U3 := List.mem_cons_of_mem _ h

theorem endsWell {cfg : Cfg} {f : Bool} {us : List Use} (h1 : ∃ res, Story cfg f us res) (h2 : ∀ e o, ¬ Story cfg f us (.err e o)) : EndsWell cfg f us := by
  have key : ∀ res, Story cfg f us res → ∃ o, res = .ok o := by
    intro res h
    cases res with
    | ok o => exact ⟨o, rfl⟩
    | err e o => exact absurd h (h2 e o)
  obtain ⟨res, h⟩ := h1
  obtain ⟨o, rfl⟩ := key res h
  exact ⟨⟨o, h⟩, key⟩

/-- C90, the part that holds: with settings that work together a simulation with new matrices raises nothing, whatever it is used for and in whatever order. -/
theorem C90_partial (cfg : Cfg) (hk : Known cfg) (h : Supported cfg) (us : List Use) (hus : ∀ u ∈ us, u ≠ .runWfs ∧ u ≠ .again false) : EndsWell cfg true us := by
  have hu := mem_U1 hus
  have hu3 : ∀ u ∈ us, u ∈ U3 := fun u hm => U1_U3 (hu u hm)
  obtain ⟨h1, h2⟩ := mirror_new hk h us hu
  refine endsWell h1 fun e o hs => ?_
  rcases other_any hk h us hu3 e o (story_any hs) with he | he
  · exact h2 e o hs (by simp [he])
  · exact recon_any hk h us hu3 e o (story_any hs) (by simp [he])

/-- All reconstructors. -/
def RA : List Cls := [.Reconstructor, .MVM, .MVM_SeparateDMs, .LearnAndApply, .LearnAndApplyLTAO, .GLAO_4LGS, .WooferTweeter, .LgsTT, .ANN]

theorem no_counts : noStart RA M0 C0 [(.senN, false)] (start true) [.w_n_measurements] = true := by decide +kernel

theorem no_load : noStart RA M0 C0 [(.loadWfs, true)] (start true) [.c_wfsss] = true := by decide +kernel

theorem no_mp : noUse RA M0 C0 [(.mp, true)] [.w_LGS] .frame = true := by decide +kernel

theorem no_modes : noStart RA [.KarhunenLoeve] C0 [(.dms, true), (.many, true)] (start true) [.d_nacts] = true := by decide +kernel

theorem no_equal : noStart RA [.Piezo] C0 [(.dms, true), (.equalSize, true)] (start true) [] = true := by decide +kernel

theorem no_loose : noStart [.MVM_SeparateDMs, .LearnAndApplyLTAO] M0 C0 [(.dms, true), (.attached, false)] (start true) [.w_int_n_measurements] = true := by decide +kernel

theorem no_subaps : noStart [.LearnAndApply, .LearnAndApplyLTAO] M0 C0 [(.senSub, false)] (start true) [.w_n_subaps] = true := by decide +kernel

theorem no_name : noStart [.LearnAndApply, .LearnAndApplyLTAO] M0 C0 [(.saveLearn, true), (.named, false)] (start true) [] = true := by decide +kernel

theorem no_field : noUse RA M0 C0 [(.sci, true), (.instField, true)] [.p_focalPlane_efield] .frame = true := by decide +kernel

theorem no_residual : noUse RA M0 C0 [(.sci, true), (.sciRes, true), (.phys, true)] [.p_residual] .frame = true := by decide +kernel

theorem no_wfe : noUse RA M0 C0 [(.sci, false), (.named, true), (.saveWfe, true)] [.s_WFE] .save = true := by decide +kernel

theorem no_strehl : noUse RA M0 C0 [(.sci, false), (.named, true), (.saveStrehl, true)] [.s_instStrehl] .save = true := by decide +kernel

theorem no_laser : noUse RA M0 C0 [(.saveLgs, true), (.uplink, true), (.senLgs, false)] [.w_lgs_psf] .frame = true := by decide +kernel

theorem known_all {cfg : Cfg} (hk : Known cfg) : cfg.recon ∈ RA := by
  obtain ⟨_, hr, _⟩ := hk
  simp only [List.mem_cons, List.not_mem_nil, or_false] at hr
  rcases hr with h | h | h | h <;> simp [RA, h]

/-- C90: and these are the only settings that do: with any other a frame, saving, or already the calibration always raises. -/
theorem C90_exact (cfg : Cfg) (hk : Known cfg) : Supported cfg ↔ ∀ us, (∀ u ∈ us, u ≠ .runWfs ∧ u ≠ .again false) → EndsWell cfg true us := by
  refine ⟨fun h us hus => C90_partial cfg hk h us hus, fun h => ?_⟩
  have hr := known_all hk
  have ha := hk
  obtain ⟨hm, hr0, hc⟩ := ha
  obtain ⟨o0, s0⟩ := (h [] (by simp)).1
  obtain ⟨o1, s1⟩ := (h [.frame] (by simp)).1
  obtain ⟨o2, s2⟩ := (h [.save] (by simp)).1
  have nt : ∀ {c : Cond}, (cfg.env c = false → False) → cfg.env c = true := fun hx => by
    by_contra hn; exact hx (by simpa using hn)
  have nf : ∀ {c : Cond}, (cfg.env c = true → False) → cfg.env c = false := fun hx => by
    by_contra hn; exact hx (by simpa using hn)
  have two : ∀ {a b : Cls}, cfg.recon = a ∨ cfg.recon = b → cfg.recon ∈ [a, b] := fun hx => by simpa using hx
  exact {
    counts := nt fun hx => noStart_sound no_counts hr hm hc (by simp [hx]) _ _ s0
    oneProcess := nf fun hx => noUse_sound no_mp hr hm hc (by simp [hx]) true _ (by simp) _ s1
    ownSensors := nf fun hx => noStart_sound no_load hr hm hc (by simp [hx]) _ _ s0
    fewModes := fun hd hmi => nf fun hx => noStart_sound no_modes hr (by simp [hmi]) hc (by simp [hx, hd]) _ _ s0
    unequal := fun hd hmi => nf fun hx => noStart_sound no_equal hr (by simp [hmi]) hc (by simp [hx, hd]) _ _ s0
    attached := fun hre hd => nt fun hx => noStart_sound no_loose (two hre) hm hc (by simp [hx, hd]) _ _ s0
    subaps := fun hre => nt fun hx => noStart_sound no_subaps (two hre) hm hc (by simp [hx]) _ _ s0
    learnt := fun hre hs => nt fun hx => noStart_sound no_name (two hre) hm hc (by simp [hx, hs]) _ _ s0
    noField := fun hs => nf fun hx => noUse_sound no_field hr hm hc (by simp [hx, hs]) true _ (by simp) _ s1
    noResidual := fun hs hp => nf fun hx => noUse_sound no_residual hr hm hc (by simp [hx, hs, hp]) true _ (by simp) _ s1
    wfe := fun hn hs => nf fun hx => noUse_sound no_wfe hr hm hc (by simp [hx, hs, hn]) true _ (by simp) _ s2
    strehl := fun hn hs => nf fun hx => noUse_sound no_strehl hr hm hc (by simp [hx, hs, hn]) true _ (by simp) _ s2
    laser := fun hl hu => nt fun hx => noUse_sound no_laser hr hm hc (by simp [hx, hl, hu]) true _ (by simp) _ s1 }

/-- Plain settings: a Shack-Hartmann sensor, one attached mirror, a camera, nothing saved. -/
def plain : Env Cond := fun c => decide (c ∈ [Cond.senN, .senSub, .senLgs, .dms, .sci, .mirrorClosed, .attached, .oneMirror])

/-- The settings of C90 exist: with a name, a GUI, a laser going up, much saved. -/
def rich : Cfg := ⟨.FastPiezo, .LearnAndApplyLTAO, .singleModeFibre, fun c => plain c || decide (c ∈ [Cond.uplink, .named, .saveLgs, .instPsf, .sciRes, .saveLearn, .saveWfe, .saveStrehl, .gui, .many, .equalSize])⟩

example : Known rich ∧ Supported rich := ⟨by simp [Known, rich], by constructor <;> decide⟩

example : EndsWell rich true [.frame, .reset, .aoloop, .makeIMat false, .thread, .again true, .save] := C90_partial rich (by simp [Known, rich]) (by constructor <;> decide) _ (by decide)

theorem no_glao : noUse [.GLAO_4LGS] M0 C0 [(.dms, true)] [] .frame = true := by decide +kernel

theorem no_lgstt : noStart [.LgsTT] M0 C0 [(.senSub, true), (.senAct, false)] (start true) [.w_activeSubaps] = true := by decide +kernel

theorem no_lgstt' : noStart [.LgsTT] M0 C0 [(.senSub, false)] (start true) [.w_n_subaps] = true := by decide +kernel

theorem no_ann : noStart [.ANN] M0 C0 [(.dms, true)] (start true) [.d_iMat] = true := by decide +kernel

theorem no_woofer : noStart [.WooferTweeter] M0 C0 [(.dms, true), (.oneMirror, false)] (start true) [.d_iMat] = true := by decide +kernel

theorem no_base : noStart [.Reconstructor] M0 C0 [] (start true) [] = true := by decide +kernel

/-- C90 fails for the other reconstructors: whatever the settings, GLAO_4LGS never completes a frame that has mirrors; LgsTT, ANN (with mirrors), WooferTweeter (with two) and the base class never complete the calibration.
No sensor has both `n_subaps` and `activeSubaps` (C89). -/
theorem C90_violated (cfg : Cfg) (hm : cfg.mirror ∈ M0) (hc : cfg.camera ∈ C0) (us : List Use) (o : Obj Att) :
    (cfg.recon = .GLAO_4LGS → cfg.env .dms = true → .frame ∈ us → ∀ f, ¬ Story cfg f us (.ok o)) ∧
    (cfg.recon = .LgsTT → ¬ (cfg.env .senSub = true ∧ cfg.env .senAct = true) → ¬ Story cfg true us (.ok o)) ∧
    (cfg.recon = .ANN → cfg.env .dms = true → ¬ Story cfg true us (.ok o)) ∧
    (cfg.recon = .WooferTweeter → cfg.env .dms = true → cfg.env .oneMirror = false → ¬ Story cfg true us (.ok o)) ∧
    (cfg.recon = .Reconstructor → ¬ Story cfg true us (.ok o)) := by
  refine ⟨fun hr hd hf f => noUse_sound no_glao (by simp [hr]) hm hc (by simp [hd]) f us hf o, fun hr hs => ?_, fun hr hd => noStart_sound no_ann (by simp [hr]) hm hc (by simp [hd]) us o,
    fun hr hd h1 => noStart_sound no_woofer (by simp [hr]) hm hc (by simp [hd, h1]) us o, fun hr => noStart_sound no_base (by simp [hr]) hm hc (by simp) us o⟩
  cases h1 : cfg.env .senSub with
  | false => exact noStart_sound no_lgstt' (by simp [hr]) hm hc (by simp [h1]) us o
  | true =>
    have h2 : cfg.env .senAct = false := by
      by_contra hn; exact hs ⟨h1, by simpa using hn⟩
    exact noStart_sound no_lgstt (by simp [hr]) hm hc (by simp [h1, h2]) us o

/-- Otherwise the settings are plain ones, which work with other reconstructors. -/
example : Known ⟨.Piezo, .MVM, .PSFCamera, plain⟩ ∧ Supported ⟨.Piezo, .MVM, .PSFCamera, plain⟩ := ⟨by simp [Known], by constructor <;> decide⟩

theorem no_runWfs : noUse RA M0 C0 [(.mp, false)] [] .runWfs = true := by decide +kernel

/-- C90: `runWfs` cannot be called as documented, without `loopIter`. -/
theorem C90_runWfs (cfg : Cfg) (hk : Known cfg) (hp : cfg.env .mp = false) (f : Bool) (us : List Use) (hu : .runWfs ∈ us) (o : Obj Att) : ¬ Story cfg f us (.ok o) :=
  noUse_sound no_runWfs (known_all hk) hk.1 hk.2.2 (by simp [hp]) f us hu o

/-- C91, the part that holds: the same with matrices loaded from disk, or not, if the loop is reset only after a frame. -/
theorem C91_partial (cfg : Cfg) (hk : Known cfg) (h : Supported cfg) (f : Bool) (us : List Use) (hus : ∀ u ∈ us, u ≠ .runWfs ∧ u ≠ .reset) : EndsWell cfg f us := by
  have hu := mem_U2 hus
  have hu3 : ∀ u ∈ us, u ∈ U3 := fun u hm => U2_U3 (hu u hm)
  refine endsWell (story_exists hk h f us hu3) fun e o hs => ?_
  rcases other_any hk h us hu3 e o (story_any hs) with he | he
  · exact mirror_any hk h us hu e o (story_any hs) (by simp [he])
  · exact recon_any hk h us hu3 e o (story_any hs) (by simp [he])

example : EndsWell rich false [.frameReset, .aoloop, .again false, .save] := C91_partial rich (by simp [Known, rich]) (by constructor <;> decide) _ _ (by decide)

theorem no_reset : noStart [.MVM, .MVM_SeparateDMs] [.CustomShapes, .KarhunenLoeve, .Zernike, .Piezo, .GaussStack, .TT] C0 [(.dms, true), (.named, true), (.present, true)] (start false ++ Use.code .reset) [] = true := by decide +kernel

theorem no_reset_fast : noStart [.MVM, .MVM_SeparateDMs] [.FastPiezo] C0 [(.dms, true), (.named, true), (.present, true)] (start false ++ Use.code .reset) [] = true := by decide +kernel

/-- C91 fails otherwise: with matrices loaded from disk `reset_loop()` before the first frame always raises. -/
theorem C91_violated (cfg : Cfg) (hk : Known cfg) (hr : cfg.recon = .MVM ∨ cfg.recon = .MVM_SeparateDMs) (hd : cfg.env .dms = true) (hn : cfg.env .named = true) (hp : cfg.env .present = true) (us : List Use) (o : Obj Att) :
    ¬ Story cfg false (.reset :: us) (.ok o) := by
  obtain ⟨hm, _, hc⟩ := hk
  have split : start false ++ (Use.reset :: us).flatMap Use.code = (start false ++ Use.code .reset) ++ us.flatMap Use.code := by simp
  have hr' : cfg.recon ∈ [Cls.MVM, .MVM_SeparateDMs] := by simpa using hr
  unfold Story Life
  rw [split]
  simp only [List.mem_cons, List.not_mem_nil, or_false] at hm
  by_cases hf : cfg.mirror = .FastPiezo
  · exact noStart_sound no_reset_fast hr' (by simp [hf]) hc (by simp [hd, hn, hp]) us o
  · exact noStart_sound no_reset hr' (by simp only [List.mem_cons, List.not_mem_nil, or_false]; tauto) hc (by simp [hd, hn, hp]) us o

/-- Such settings exist, and work with new matrices. -/
def stored : Cfg := ⟨.Piezo, .MVM, .PSFCamera, fun c => plain c || decide (c ∈ [Cond.named, .present])⟩

example : Known stored ∧ Supported stored ∧ EndsWell stored true [.reset] ∧ EndsWell stored false [.frame, .frameReset] :=
  ⟨by simp [Known, stored], by constructor <;> decide, C90_partial stored (by simp [Known, stored]) (by constructor <;> decide) _ (by decide), C91_partial stored (by simp [Known, stored]) (by constructor <;> decide) _ _ (by decide)⟩

end Soapy.Props
