/-
The analysis of `Lemmas/Prog.lean` on the programs of `Model/Sys.lean`.  Errors are sorted by what can cause them; each kind of error is excluded by analyses that know only what concerns it: the type of the mirrors, of the reconstructor, of the cameras, or one or two conditions.
-/
import Verif.Model.Sys
import Verif.Lemmas.Prog

namespace Soapy.Sys

open Soapy.Prog

instance : Bits Att where
  bit := Att.ctorIdx
  inj := by
    intro a b h
    have := congrArg Att.ofNat h
    simpa [Att.ofNat_ctorIdx] using this

instance : Bits Cond where
  bit := Cond.ctorIdx
  inj := by
    intro a b h
    have := congrArg Cond.ofNat h
    simpa [Cond.ofNat_ctorIdx] using this

/-- Errors here. -/
abbrev E := Err Att Meth Glob Exc

/-- What an error depends on. -/
inductive Kind
  | mirror | recon | camera | gui | name | strehl | inst | lgs
  deriving DecidableEq

/-- By attribute. -/
def kindA : Att → Kind
  | .s_waitingPlot | .s_guiLock => .gui
  | .s_path => .name
  | .s_WFE | .s_instStrehl | .s_longStrehl => .strehl
  | .s_sciImgsInst => .inst
  | .w_lgs | .w_lgs_psf => .lgs
  | .d_n_acts | .d_n_valid_actuators | .d_dmConfig | .d_dm_shape | .d_soapy_config | .d_n_dm | .d_simConfig | .d_config | .d_pupil_size | .d_sim_size | .d_scrn_size | .d_altitude | .d_diameter | .d_telescope_diameter | .d_wfss
    | .d_mask | .d_nx_dm_elements | .d_dm_frame | .d_dm_screen | .d_screen_coord | .d_actCoeffs | .d_wfs | .d_iMatShapes | .d_priv_valid_actuators | .d_nacts | .d_spcing | .d_valid_act_coords | .d_xActs | .d_n_active_actuators
    | .d_actGrid | .d_dmSize | .d_valid_actuators | .d_iMat => .mirror
  | .p_long_exp_image | .p_instStrehl | .p_longExpStrehl | .p_residual | .p_detector | .p_focalPlane_efield | .p_fov | .p_nx_pixels | .p_soapy_config | .p_config | .p_sciConfig | .p_simConfig | .p_sim_size | .p_pupil_size
    | .p_sim_pad | .p_threads | .p_telescope_diameter | .p_fov_rad | .p_FOVPxlNo | .p_crop_fov_factor | .p_fov_crop_elements | .p_padFOVPxlNo | .p_fov_sim_pad | .p_mask | .p_los | .p_scaledMask | .p_FFTPadding
    | .p_fft_crop_elements | .p_fft_input_data | .p_fft_output_data | .p_fft_calculator | .p_phsNm2Rad | .p_interp_coords | .p_interp_phase | .p_focus_efield | .p_focus_intensity | .p_priv_long_exp_image | .p_bestPSF | .p_psfMax
    | .p_EField_fov | .p_fov_focus_efield | .p_normMask | .p_fibreSize | .p_refStrehl | .p_fibre_efield | .s_ee50d | .s_scieFieldInst => .camera
  | _ => .recon

/-- By method. -/
def kindM : Meth → Kind
  | .d_init | .d_getActiveActs | .d_dmFrame | .d_makeDMFrame | .d_reset | .d_makeIMatShapes | .d_getValid | .d_setValid => .mirror
  | .p_init | .p_reset | .p_setMask | .p_calcFocalPlane | .p_calcInstStrehl | .p_calc_wavefronterror | .p_frame | .p_fibreEfield | .p_refCouplingLoss => .camera
  | _ => .recon

/-- What an error depends on. -/
def kind : E → Kind
  | .attributeError a => kindA a
  | .noMethod m => kindM m
  | .typeError m => kindM m
  | .nameError _ => .recon
  | .other _ => .recon

/-- Types that can be chosen. -/
def R0 : List Cls := [.MVM, .MVM_SeparateDMs, .LearnAndApply, .LearnAndApplyLTAO]

/-- Types of mirrors. -/
def M0 : List Cls := [.CustomShapes, .KarhunenLoeve, .Zernike, .Piezo, .GaussStack, .TT, .FastPiezo]

/-- Types of cameras. -/
def C0 : List Cls := [.PSFCamera, .singleModeFibre]

/-- What every analysis below knows. -/
def base : List (Cond × Bool) := [(.senN, true), (.mp, false), (.loadWfs, false)]

/-- Everything but `runWfs`, `again false`. -/
def U1 : List Use := [.frame, .aoloop, .thread, .reset, .frameReset, .makeIMat true, .makeIMat false, .again true, .save]

/-- Everything but `runWfs`, `reset`. -/
def U2 : List Use := [.frame, .aoloop, .thread, .frameReset, .makeIMat true, .makeIMat false, .again true, .again false, .save]

/-- Everything but `runWfs`. -/
def U3 : List Use := .reset :: U2

/-- Everything. -/
def U4 : List Use := .runWfs :: U3

/-- `start` with either argument. -/
def startAny : List I := run .s_init ++ [.ifc .gui (S [.s_guiQueue, .s_guiLock, .s_gui, .s_waitingPlot]) []] ++ run .s_aoinit ++
  [.ifa [.call .self .s_makeIMat [] [(.forceNew, true)]] [.call .self .s_makeIMat [] [(.forceNew, false)]]]

/-- The parts of a simulation. -/
def parts (r m c : List Cls) : List (List (List Cls)) := [[[.Sim]], r.map mro, m.map mro, c.map mro]

/-- Knowledge worked out. -/
def knowing {α : Type} (l : List (Cond × Bool)) (k : Know → α) : α := force (know l).1 fun a => force (know l).2 fun b => k (a, b)

/-- With these types and conditions the errors are of other kinds. -/
def chk (r m c : List Cls) (l : List (Cond × Bool)) (first : List I) (uses : List Use) (ks : List Kind) : Bool :=
  knowing (l ++ base) fun kn => calm source (among source (parts r m c)) kn first Use.code uses [] fun e => !ks.contains (kind e)

/-- With these types and conditions the start does not end well. -/
def noStart (r m c : List Cls) (l : List (Cond × Bool)) (first : List I) (miss : List Att) : Bool :=
  knowing l fun kn => force (allBut miss) fun h => never (an source (among source (parts r m c)) fuel kn (0, h) (.seq first))

/-- With these types and conditions a use does not end well. -/
def noUse (r m c : List Cls) (l : List (Cond × Bool)) (miss : List Att) (v : Use) : Bool :=
  knowing l fun kn => doomed source (among source (parts r m c)) kn startAny Use.code U4 miss v

theorem chain_mem {cfg : Cfg} {r m c : List Cls} (hr : cfg.recon ∈ r) (hm : cfg.mirror ∈ m) (hc : cfg.camera ∈ c) : cfg.chain ∈ picks (parts r m c) := by
  simp only [Cfg.chain, parts, picks, List.flatMap_cons, List.flatMap_nil, List.append_nil, List.mem_map, List.mem_flatMap]
  exact ⟨mro cfg.recon ++ (mro cfg.mirror ++ mro cfg.camera), ⟨mro cfg.recon, ⟨_, hr, rfl⟩, _, ⟨mro cfg.mirror, ⟨_, hm, rfl⟩, mro cfg.camera, ⟨mro cfg.camera, ⟨_, hc, rfl⟩, [], by simp, by simp⟩, rfl⟩, rfl⟩, by simp⟩

/-- A story in which the argument of the first `makeIMat` is left open. -/
def StoryAny (cfg : Cfg) (us : List Use) (res : Res Att Meth Glob Exc) : Prop := Life source cfg.chain cfg.env startAny Use.code us res

theorem story_any {cfg : Cfg} {f : Bool} {us : List Use} {res : Res Att Meth Glob Exc} (h : Story cfg f us res) : StoryAny cfg us res := by
  unfold Story Life at h
  unfold StoryAny Life
  rw [exec_append] at h ⊢
  have key : ∀ res, Exec source cfg.chain cfg.env fresh (.seq (start f)) res → Exec source cfg.chain cfg.env fresh (.seq startAny) res := by
    intro res h
    have e1 : start f = (run .s_init ++ [.ifc .gui (S [.s_guiQueue, .s_guiLock, .s_gui, .s_waitingPlot]) []] ++ run .s_aoinit) ++ [.call .self .s_makeIMat [] [(.forceNew, f)]] := rfl
    rw [e1, exec_append] at h
    unfold startAny
    rw [exec_append]
    rcases h with ⟨o, h1, h2⟩ | h
    · refine Or.inl ⟨o, h1, ?_⟩
      have one : ∀ {i j : I}, (∀ res, Exec source cfg.chain cfg.env o (.one i) res → Exec source cfg.chain cfg.env o (.one j) res) → Exec source cfg.chain cfg.env o (.seq [i]) res → Exec source cfg.chain cfg.env o (.seq [j]) res := by
        intro i j hij h
        cases h with
        | cons_ok _ _ _ _ o' _ h3 h4 => exact .cons_ok _ _ _ _ _ _ (hij _ h3) h4
        | cons_err _ _ _ _ e o' h3 => exact .cons_err _ _ _ _ _ _ (hij _ h3)
      refine one (fun res h => ?_) h2
      have h' : Exec source cfg.chain cfg.env o (.seq [.call .self .s_makeIMat [] [(.forceNew, f)]]) res := by
        cases res with
        | ok o' => exact .cons_ok _ _ _ _ _ _ h (.nil _ _)
        | err e o' => exact .cons_err _ _ _ _ _ _ h
      cases f with
      | true => exact .ifa_true _ _ _ _ _ h'
      | false => exact .ifa_false _ _ _ _ _ h'
    · exact Or.inr h
  rcases h with ⟨o, h1, h2⟩ | ⟨e, o, h1, h2⟩
  · exact Or.inl ⟨o, key _ h1, h2⟩
  · exact Or.inr ⟨e, o, key _ h1, h2⟩

section
variable {cfg : Cfg} {r m c : List Cls} {l : List (Cond × Bool)} {first : List I} {uses : List Use} {ks : List Kind} {miss : List Att}

theorem chk_sound (h : chk r m c l first uses ks = true) (hr : cfg.recon ∈ r) (hm : cfg.mirror ∈ m) (hc : cfg.camera ∈ c) (hl : ∀ p ∈ l ++ base, cfg.env p.1 = p.2) (us : List Use) (hus : ∀ u ∈ us, u ∈ uses) :
    (∃ res, Life source cfg.chain cfg.env first Use.code us res) ∧ ∀ e o, Life source cfg.chain cfg.env first Use.code us (.err e o) → kind e ∉ ks := by
  simp only [chk, knowing, force_eq] at h
  obtain ⟨h1, h2⟩ := calm_sound (fun w me kw => among_mem source _ _ (chain_mem hr hm hc) w me kw) h (fits_know hl) us hus
  exact ⟨h1, fun e o hx => by simpa using h2 e o hx⟩

theorem noStart_sound (h : noStart r m c l first miss = true) (hr : cfg.recon ∈ r) (hm : cfg.mirror ∈ m) (hc : cfg.camera ∈ c) (hl : ∀ p ∈ l, cfg.env p.1 = p.2) (us : List Use) (o : Obj Att) :
    ¬ Life source cfg.chain cfg.env first Use.code us (.ok o) := by
  simp only [noStart, knowing, force_eq] at h
  exact first_never (fun w me kw => among_mem source _ _ (chain_mem hr hm hc) w me kw) (fits_know hl) h us o

theorem noUse_sound {v : Use} (h : noUse r m c l miss v = true) (hr : cfg.recon ∈ r) (hm : cfg.mirror ∈ m) (hc : cfg.camera ∈ c) (hl : ∀ p ∈ l, cfg.env p.1 = p.2) (f : Bool) (us : List Use) (hv : v ∈ us) (o : Obj Att) : ¬ Story cfg f us (.ok o) := by
  intro hs
  simp only [noUse, knowing, force_eq] at h
  obtain ⟨us1, us2, rfl⟩ := List.append_of_mem hv
  refine doomed_sound (fun w me kw => among_mem source _ _ (chain_mem hr hm hc) w me kw) h (fits_know hl) us1 us2 (fun u _ => ?_) o (story_any hs)
  cases u with
  | makeIMat f => cases f <;> simp [U4, U3, U2]
  | again f => cases f <;> simp [U4, U3, U2]
  | _ => simp [U4, U3, U2]

end

end Soapy.Sys
