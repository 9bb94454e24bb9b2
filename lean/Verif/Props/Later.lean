/-
Property theorems C148: the loop answers later turbulence later, and is known from its answers to flashes.
-/
import Verif.Props.Superpose
import Verif.Lemmas.Delay
import Verif.Lemmas.Loop

namespace Soapy.Props

open Soapy.Mirror Soapy.Los Soapy.Whole Soapy.Loop Soapy.Control Soapy.Vec

variable {σ σ' Surf : Type}

/-! ### Two loops, one of which started earlier -/

/-- The second loop started `d` frames earlier and has seen nothing since: it has reached what the first has, except for zeros where the first has nothing yet (the values of the reconstructor, the delay buffer), and its records.
`n` is the number of commands. -/
structure Late (d n : ℕ) (W : σ → σ' → Prop) (s : Loop.State σ Surf) (s' : Loop.State σ' Surf) : Prop where
  recon : s'.recon.actuatorValues = s.recon.actuatorValues ∨ s.recon.actuatorValues = none ∧ s'.recon.actuatorValues = some (zeros n)
  dmCommands : s'.dmCommands = s.dmCommands
  length : s.dmCommands.length = n
  buffer : ∃ j, s'.buffer = List.replicate j (zeros n) ++ s.buffer
  slopes : s'.slopes = s.slopes
  closedCorr : s'.closedCorr = s.closedCorr
  openCorr : s'.openCorr = s.openCorr
  iters : s'.iters = s.iters + d
  plant : W s.plant s'.plant

/-- Atmosphere and sensors of the second show in frame `i + d` what those of the first show in frame `i`. -/
def LatePlant (d : ℕ) (W : σ → σ' → Prop) (pl : Plant σ Surf) (pl' : Plant σ' Surf) : Prop :=
  ∀ x x' i c y m y' m', W x x' → pl.sense x i c = .ok (y, m) → pl'.sense x' (i + d) c = .ok (y', m') → W y y' ∧ m' = m

private theorem late_delay (n j : ℕ) (buf b b' : List (List ℚ)) (v o o' : List ℚ) (hv : v.length = n) (c : ℤ)
    (h : Delay.delay zeroLike buf v c = .ok (b, o)) (h' : Delay.delay zeroLike (List.replicate j (zeros n) ++ buf) v c = .ok (b', o')) : o' = o ∧ ∃ k, b' = List.replicate k (zeros n) ++ b := by
  have hz : zeroLike v = zeros n := by
    unfold zeroLike zeros
    rw [← hv]
    simp
  rcases lt_or_ge c 0 with hc | hc
  · unfold Delay.delay at h
    simp only [Delay.popLoop_eq, List.length_append, List.length_singleton] at h
    rw [if_neg (by omega), if_neg (by omega)] at h
    cases h
  obtain ⟨e, rfl⟩ := Int.eq_ofNat_of_zero_le hc
  rw [Delay.delay_nat] at h h'
  simp only [List.length_append, List.length_replicate] at h'
  by_cases h1 : buf.length < e
  · rw [if_pos h1] at h
    cases h
    by_cases h2 : j + buf.length < e
    · rw [if_pos h2] at h'
      cases h'
      exact ⟨rfl, j, by simp⟩
    · rw [if_neg h2] at h'
      cases h'
      constructor
      · rw [List.append_assoc, List.getElem?_append_left (by simp; omega), List.getElem?_replicate_of_lt (by omega), hz]
        rfl
      · refine ⟨j - (j + buf.length + 1 - e), ?_⟩
        rw [List.append_assoc, List.drop_append_of_le_length (by simp; omega), List.drop_replicate]
  · rw [if_neg h1] at h
    rw [if_neg (by omega)] at h'
    cases h; cases h'
    constructor
    · rw [List.append_assoc, List.getElem?_append_right (by simp; omega), List.length_replicate, show j + buf.length - e - j = buf.length - e by omega]
    · refine ⟨0, ?_⟩
      rw [List.append_assoc, List.drop_append, List.drop_eq_nil_of_le (by simp; omega), List.length_replicate, show j + buf.length + 1 - e - j = buf.length + 1 - e by omega]
      simp

private theorem delay_len (n : ℕ) (buf b : List (List ℚ)) (v o : List ℚ) (hv : v.length = n) (hb : ∀ x ∈ buf, x.length = n) (c : ℤ) (h : Delay.delay zeroLike buf v c = .ok (b, o)) : o.length = n ∧ ∀ x ∈ b, x.length = n := by
  have hall : ∀ x ∈ buf ++ [v], x.length = n := by
    intro x hx
    rcases List.mem_append.mp hx with hx | hx
    · exact hb x hx
    · rw [List.mem_singleton.mp hx, hv]
  unfold Delay.delay at h
  dsimp only at h
  by_cases h1 : ((buf ++ [v]).length : ℤ) ≤ c
  · rw [if_pos h1] at h
    cases h
    exact ⟨by simp [zeroLike, hv], hall⟩
  rw [if_neg h1, Delay.popLoop_eq] at h
  by_cases h2 : (((buf ++ [v]).length : ℤ) - c).toNat ≤ (buf ++ [v]).length
  · rw [if_pos h2, if_neg (by omega)] at h
    cases hx : (buf ++ [v])[(((buf ++ [v]).length : ℤ) - c).toNat - 1]? with
    | none => rw [hx] at h; cases h
    | some y =>
      rw [hx] at h
      cases h
      exact ⟨hall _ (List.mem_of_getElem? hx), fun x hx => hall x (List.mem_of_mem_drop hx)⟩
  · rw [if_neg h2] at h
    cases h

private theorem late_control {sys : Sys Surf} (dms : List DmCtl) (n j : ℕ) (hn : dms ≠ [] → (dms.map DmCtl.nValid).sum = n) (r r' r1 r2 : Recon) (cmds m o1 o2 : List ℚ) (buf b1 b2 : List (List ℚ))
    (hr : r'.actuatorValues = r.actuatorValues ∨ r.actuatorValues = none ∧ r'.actuatorValues = some (zeros n)) (hc : cmds.length = n)
    (h : Loop.control sys dms r cmds buf m = .ok (r1, b1, o1)) (h' : Loop.control sys dms r' cmds (List.replicate j (zeros n) ++ buf) m = .ok (r2, b2, o2)) :
    (r2.actuatorValues = r1.actuatorValues ∨ r1.actuatorValues = none ∧ r2.actuatorValues = some (zeros n)) ∧ (∃ k, b2 = List.replicate k (zeros n) ++ b1) ∧ o2 = o1 := by
  unfold Loop.control at h h'
  by_cases h0 : dms.length = 0
  · simp only [h0, if_true] at h h'
    cases e1 : Delay.delay zeroLike buf cmds sys.loopDelay with
    | error e => rw [e1] at h; cases h
    | ok u =>
      cases e2 : Delay.delay zeroLike (List.replicate j (zeros n) ++ buf) cmds sys.loopDelay with
      | error e => rw [e2] at h'; cases h'
      | ok u' =>
        obtain ⟨b, o⟩ := u
        obtain ⟨b', o'⟩ := u'
        rw [e1] at h
        rw [e2] at h'
        cases h; cases h'
        obtain ⟨g1, g2⟩ := late_delay n j buf b1 b2 cmds o1 o2 hc _ e1 e2
        exact ⟨hr, g2, g1⟩
  · simp only [h0, if_false] at h h'
    have hne : dms ≠ [] := fun e => h0 (by rw [e]; rfl)
    have same : reconstruct dms (dms.map DmCtl.nValid).sum sys.product r' m = reconstruct dms (dms.map DmCtl.nValid).sum sys.product r m := by
      unfold reconstruct
      rcases hr with hr | ⟨hr1, hr2⟩
      · rw [hr]
      · rw [hr1, hr2, hn hne]
    rw [same] at h'
    cases er : reconstruct dms (dms.map DmCtl.nValid).sum sys.product r m with
    | error e => rw [er] at h; cases h
    | ok u =>
      obtain ⟨q, new⟩ := u
      rw [er] at h h'
      dsimp only at h h'
      by_cases hl : new.length = cmds.length
      · simp only [hl, if_true] at h h'
        cases e1 : Delay.delay zeroLike buf new sys.loopDelay with
        | error e => rw [e1] at h; cases h
        | ok u =>
          cases e2 : Delay.delay zeroLike (List.replicate j (zeros n) ++ buf) new sys.loopDelay with
          | error e => rw [e2] at h'; cases h'
          | ok u' =>
            obtain ⟨b, o⟩ := u
            obtain ⟨b', o'⟩ := u'
            rw [e1] at h
            rw [e2] at h'
            cases h; cases h'
            obtain ⟨g1, g2⟩ := late_delay n j buf b1 b2 new o1 o2 (hl.trans hc) _ e1 e2
            exact ⟨.inl rfl, g2, g1⟩
      · simp only [hl, if_false] at h
        cases h

private theorem control_len {sys : Sys Surf} (dms : List DmCtl) (n : ℕ) (r r1 : Recon) (cmds m o1 : List ℚ) (buf b1 : List (List ℚ)) (hr : ∀ a, r.actuatorValues = some a → a.length = n) (hc : cmds.length = n)
    (hb : ∀ x ∈ buf, x.length = n) (h : Loop.control sys dms r cmds buf m = .ok (r1, b1, o1)) :
    (∀ a, r1.actuatorValues = some a → a.length = n) ∧ (∀ x ∈ b1, x.length = n) ∧ o1.length = n := by
  unfold Loop.control at h
  by_cases h0 : dms.length = 0
  · simp only [h0, if_true] at h
    cases e1 : Delay.delay zeroLike buf cmds sys.loopDelay with
    | error e => rw [e1] at h; cases h
    | ok u =>
      obtain ⟨b, o⟩ := u
      rw [e1] at h
      cases h
      obtain ⟨g1, g2⟩ := delay_len n buf b1 cmds o1 hc hb _ e1
      exact ⟨hr, g2, g1⟩
  · simp only [h0, if_false] at h
    cases er : reconstruct dms (dms.map DmCtl.nValid).sum sys.product r m with
    | error e => rw [er] at h; cases h
    | ok u =>
      obtain ⟨q, new⟩ := u
      rw [er] at h
      dsimp only at h
      by_cases hl : new.length = cmds.length
      · simp only [hl, if_true] at h
        cases e1 : Delay.delay zeroLike buf new sys.loopDelay with
        | error e => rw [e1] at h; cases h
        | ok u =>
          obtain ⟨b, o⟩ := u
          rw [e1] at h
          cases h
          obtain ⟨g1, g2⟩ := delay_len n buf b1 new o1 (hl.trans hc) hb _ e1
          refine ⟨fun a ha => ?_, g2, g1⟩
          have : r1 = ⟨some new⟩ := by
            unfold reconstruct at er
            dsimp only at er
            cases hp : sys.product m with
            | error e => rw [hp] at er; cases er
            | ok w =>
              rw [hp] at er
              dsimp only at er
              split at er
              · cases er
              · cases er
                rfl
          rw [this] at ha
          cases ha
          exact hl.trans hc
      · simp only [hl, if_false] at h
        cases h

variable [Add Surf]

/-- **C148 (frame).**  In a frame that shows the late loop what the other saw `d` frames before, both do the same. -/
theorem C148_frame {sys : Sys Surf} {d n : ℕ} {W : σ → σ' → Prop} {pl : Plant σ Surf} {pl' : Plant σ' Surf} (hp : LatePlant d W pl pl') (dms : List DmCtl) (hn : dms ≠ [] → (dms.map DmCtl.nValid).sum = n)
    {s z : Loop.State σ Surf} {s' z' : Loop.State σ' Surf} {t t' : Trace Surf} (h : Late d n W s s') (hb : ∀ x ∈ s.buffer, x.length = n) (ha : ∀ a, s.recon.actuatorValues = some a → a.length = n)
    (h1 : loopFrame sys pl dms s = .ok (z, t)) (h2 : loopFrame sys pl' dms s' = .ok (z', t')) :
    Late d n W z z' ∧ t' = t ∧ (∀ x ∈ z.buffer, x.length = n) ∧ ∀ a, z.recon.actuatorValues = some a → a.length = n := by
  obtain ⟨a1, a2, a3, a4, a5, a6, a7, a8, a9, _⟩ := loopFrame_ok sys pl dms s z t h1
  obtain ⟨b1, b2, b3, b4, b5, b6, b7, b8, b9, _⟩ := loopFrame_ok sys pl' dms s' z' t' h2
  obtain ⟨j, hj⟩ := h.buffer
  rw [h.dmCommands, hj, h.slopes] at b1
  obtain ⟨c1, c2, c3⟩ := late_control dms n j hn _ _ _ _ _ _ _ _ _ _ _ h.recon h.length a1 b1
  obtain ⟨l1, l2, l3⟩ := control_len dms n _ _ _ _ _ _ _ ha h.length hb a1
  rw [c3, h.closedCorr, a2] at b2
  rw [c3, h.openCorr, a3] at b3
  have d1 : z'.closedCorr = z.closedCorr := (Except.ok.inj b2).symm
  have d2 : z'.openCorr = z.openCorr := (Except.ok.inj b3).symm
  rw [h.iters, d1] at b4
  obtain ⟨w1, w2⟩ := hp _ _ _ _ _ _ _ _ h.plant a4 b4
  refine ⟨⟨c1, by rw [b7, a7, c3], by rw [a7, l3], c2, by rw [b8, a8, w2], d1, d2, by rw [b9, a9, h.iters]; omega, w1⟩, ?_, l2, l1⟩
  obtain ⟨x1, x2, x3, x4⟩ := t
  obtain ⟨y1, y2, y3, y4⟩ := t'
  simp only at c3 w2 a5 a6 b5 b6
  rw [c3, w2, b5, b6, a5, a6, d1, d2]

/-- **C148 (run).**  So they do in every frame that follows, whatever modes and gains are in force. -/
theorem C148_run {sys : Sys Surf} {d n : ℕ} {W : σ → σ' → Prop} {pl : Plant σ Surf} {pl' : Plant σ' Surf} (hp : LatePlant d W pl pl') : ∀ (frames : List (List DmCtl)), (∀ dms ∈ frames, dms ≠ [] → (dms.map DmCtl.nValid).sum = n) →
    ∀ {s z : Loop.State σ Surf} {s' z' : Loop.State σ' Surf} {t t' : List (Trace Surf)}, Late d n W s s' → (∀ x ∈ s.buffer, x.length = n) → (∀ a, s.recon.actuatorValues = some a → a.length = n) →
    runLoop sys pl s frames = .ok (z, t) → runLoop sys pl' s' frames = .ok (z', t') → Late d n W z z' ∧ t' = t
  | [], _, s, z, s', z', t, t', h, _, _, h1, h2 => by
    simp only [runLoop, Except.ok.injEq, Prod.mk.injEq] at h1 h2
    obtain ⟨rfl, rfl⟩ := h1
    obtain ⟨rfl, rfl⟩ := h2
    exact ⟨h, rfl⟩
  | dms :: rest, hn, s, z, s', z', t, t', h, hb, ha, h1, h2 => by
    obtain ⟨s1, u, ts, e1, e2, rfl⟩ := runLoop_cons _ _ _ _ _ _ _ h1
    obtain ⟨s1', u', ts', e1', e2', rfl⟩ := runLoop_cons _ _ _ _ _ _ _ h2
    obtain ⟨g1, g2, g3, g4⟩ := C148_frame hp dms (hn dms (by simp)) h hb ha e1 e1'
    obtain ⟨k1, k2⟩ := C148_run hp rest (fun x hx => hn x (by simp [hx])) g1 g3 g4 e2 e2'
    exact ⟨k1, by rw [g2, k2]⟩

/-! ### Sizes, and frames one after the other -/

omit [Add Surf] in
private theorem runDM_len (f : ℕ → List ℚ → Except PyErr Surf) (cl : Bool) (c : List ℚ) : ∀ (k : ℕ) (ds : List DmCtl) (as : List ℕ) (b o : List Surf), runDM f cl c k ds as b = .ok o → o.length = b.length
  | _, [], _, b, o, h => by
    simp only [runDM, Except.ok.injEq] at h
    rw [h]
  | _, _ :: _, [], b, o, h => by cases h
  | k, d :: ds, a :: as, b, o, h => by
    rw [runDM] at h
    split_ifs at h with hc
    · cases hs : f k (slice c a (a + d.nValid)) with
      | error e => rw [hs] at h; cases h
      | ok s =>
        rw [hs] at h
        rw [runDM_len f cl c _ ds as _ o h, List.length_set]
    · exact runDM_len f cl c _ ds as b o h

/-- Sizes that do not change in a run. -/
structure Sizes (n m nDm : ℕ) (s : Loop.State σ Surf) : Prop where
  recon : ∀ a, s.recon.actuatorValues = some a → a.length = n
  dmCommands : s.dmCommands.length = n
  buffer : ∀ x ∈ s.buffer, x.length = n
  slopes : s.slopes.length = m
  closedCorr : s.closedCorr.length = nDm
  openCorr : s.openCorr.length = nDm

private theorem sizes_run {sys : Sys Surf} {pl : Plant σ Surf} {n m nDm : ℕ} (hm : ∀ x i c y l, pl.sense x i c = .ok (y, l) → l.length = m) : ∀ (frames : List (List DmCtl)) (s z : Loop.State σ Surf) (t : List (Trace Surf)),
    Sizes n m nDm s → runLoop sys pl s frames = .ok (z, t) → Sizes n m nDm z
  | [], s, z, t, h, h1 => by
    simp only [runLoop, Except.ok.injEq, Prod.mk.injEq] at h1
    obtain ⟨rfl, rfl⟩ := h1
    exact h
  | dms :: rest, s, z, t, h, h1 => by
    obtain ⟨s1, u, ts, e1, e2, rfl⟩ := runLoop_cons _ _ _ _ _ _ _ h1
    refine sizes_run hm rest s1 z ts ?_ e2
    obtain ⟨a1, a2, a3, a4, _, _, a7, a8, _⟩ := loopFrame_ok sys pl dms s s1 u e1
    obtain ⟨l1, l2, l3⟩ := control_len dms n _ _ _ _ _ _ _ h.recon h.dmCommands h.buffer a1
    exact ⟨l1, by rw [a7, l3], l2, by rw [a8]; exact hm _ _ _ _ _ a4, (runDM_len _ _ _ _ _ _ _ _ a2).trans h.closedCorr, (runDM_len _ _ _ _ _ _ _ _ a3).trans h.openCorr⟩

private theorem split_run {sys : Sys Surf} {pl : Plant σ Surf} : ∀ (f g : List (List DmCtl)) (s z : Loop.State σ Surf) (t : List (Trace Surf)), runLoop sys pl s (f ++ g) = .ok (z, t) →
    ∃ y a b, runLoop sys pl s f = .ok (y, a) ∧ runLoop sys pl y g = .ok (z, b) ∧ t = a ++ b
  | [], g, s, z, t, h => ⟨s, [], t, rfl, h, rfl⟩
  | dms :: f, g, s, z, t, h => by
    obtain ⟨s1, u, ts, e1, e2, rfl⟩ := runLoop_cons _ _ _ _ _ _ _ h
    obtain ⟨y, a, b, h1, h2, rfl⟩ := split_run f g s1 z ts e2
    exact ⟨y, u :: a, b, by simp only [runLoop, e1, h1], h2, rfl⟩

/-- Turbulence of frames that are not reached does not matter. -/
private theorem run_agrees {sys : Sys Surf} {pl pl' : Plant σ Surf} {k : ℕ} (hp : ∀ x i c, i < k → pl.sense x i c = pl'.sense x i c) : ∀ (f : List (List DmCtl)) (s : Loop.State σ Surf), s.iters + f.length ≤ k →
    runLoop sys pl s f = runLoop sys pl' s f
  | [], _, _ => rfl
  | dms :: f, s, hk => by
    have hk' : s.iters + f.length + 1 ≤ k := by simpa [Nat.add_assoc] using hk
    have e : loopFrame sys pl dms s = loopFrame sys pl' dms s := by
      unfold loopFrame
      simp only [hp _ s.iters _ (by omega)]
    simp only [runLoop, e]
    cases h : loopFrame sys pl' dms s with
    | error e => rfl
    | ok p =>
      obtain ⟨s', t⟩ := p
      have hi := (loopFrame_ok sys pl' dms s s' t h).2.2.2.2.2.2.2.2.1
      simp only [run_agrees hp f s' (by omega)]

/-! ### Simulations -/

/-- Turbulence that begins `d` frames later. -/
def laterTurb (d : ℕ) (t : ℕ → ℕ → ℕ → ℕ → ℚ) : ℕ → ℕ → ℕ → ℕ → ℚ := fun i => if i < d then 0 else t (i - d)

private theorem mix_zero {x : List ℚ} (h : Mix 1 x x x) : x = zeros x.length := by
  have : ∀ a b c : List ℚ, Mix 1 a b c → a = b → b = c → a = zeros a.length := by
    intro a b c h
    induction h with
    | nil => intro _ _; rfl
    | cons h _ ih =>
      intro h1 h2
      injection h1 with h1 h3
      injection h2 with h2 h4
      subst h1 h2
      have h0 := ih h3 h4
      rw [one_mul] at h
      rw [show ∀ (a : ℚ) (l : List ℚ), zeros (a :: l).length = 0 :: zeros l.length from fun _ _ => rfl, ← h0, left_eq_add.mp h]
  exact this x x x h rfl rfl

private theorem mixS_zero {x : List Stack} (h : MixS 1 x x x) : x = List.replicate x.length 0 := by
  have : ∀ a b c : List Stack, MixS 1 a b c → a = b → b = c → a = List.replicate a.length 0 := by
    intro a b c h
    induction h with
    | nil => intro _ _; rfl
    | cons h _ ih =>
      intro h1 h2
      injection h1 with h1 h3
      injection h2 with h2 h4
      subst h1 h2
      have h0 := ih h3 h4
      rw [one_smul] at h
      rw [show ∀ (a : Stack) (l : List Stack), List.replicate (a :: l).length (0 : Stack) = 0 :: List.replicate l.length 0 from fun _ _ => rfl, ← h0, left_eq_add.mp h]
  exact this x x x h rfl rfl

private theorem each_zero {n : ℕ} {b : List (List ℚ)} (h : Each3 (Mix 1) b b b) (hl : ∀ x ∈ b, x.length = n) : b = List.replicate b.length (zeros n) := by
  have : ∀ p q r : List (List ℚ), Each3 (Mix 1) p q r → p = q → q = r → (∀ x ∈ p, x.length = n) → p = List.replicate p.length (zeros n) := by
    intro p q r h
    induction h with
    | nil => intro _ _ _; rfl
    | cons h _ ih =>
      intro h1 h2 hl
      injection h1 with h1 h3
      injection h2 with h2 h4
      subst h1 h2
      have h0 := ih h3 h4 fun x hx => hl x (by simp [hx])
      rw [show ∀ (a : List ℚ) (l : List (List ℚ)), List.replicate (a :: l).length (zeros n) = zeros n :: List.replicate l.length (zeros n) from fun _ _ => rfl, ← h0]
      have := mix_zero h
      rw [hl _ (by simp)] at this
      rw [← this]
  exact this b b b h rfl rfl hl

/-- **C148 (later turbulence).**  A simulation that sees nothing in its first frames and then a turbulence does nothing in these frames - no command, no measurement, no correction - and then what it would have done if the turbulence had begun
at once: commands, measurements and corrections as sensors and cameras see them are the same in every frame, for every control matrix and delay and whatever gains and modes are in force (in the quiet frames too). -/
theorem C148_later (o : Optics) (ho : Optics.Sound o) (dms : List Persist.Dm) (cmat : List (List ℚ)) (loopDelay : ℤ) (nIters : ℕ) (saveSlopes saveDm : Bool) (ctl : List DmCtl) (nActs : ℕ) (quiet frames : List (List DmCtl))
    (hn : ∀ f ∈ frames, f ≠ [] → (f.map DmCtl.nValid).sum = (ctl.map DmCtl.nValid).sum) (sys : Sys Stack) (hsys : sys = o.sys dms cmat loopDelay nIters saveSlopes saveDm) (t : ℕ → ℕ → ℕ → ℕ → ℚ) (s s' : Loop.State Unit Stack)
    (x x' : List (Trace Stack)) (h : runLoop sys (o.plant t) (initial sys ctl o.totalMeas nActs ()) frames = .ok (s, x))
    (h' : runLoop sys (o.plant (laterTurb quiet.length t)) (initial sys ctl o.totalMeas nActs ()) (quiet ++ frames) = .ok (s', x')) :
    ∃ y, x' = y ++ x ∧ y.length = quiet.length ∧ ∀ i p, cmdAt y i p = 0 ∧ measureAt y i p = 0 ∧ corrAt y i p = 0 := by
  obtain ⟨z, a, b, h1, h2, rfl⟩ := split_run quiet frames _ _ _ h'
  have hag : runLoop sys (o.plant (laterTurb quiet.length t)) (initial sys ctl o.totalMeas nActs ()) quiet = runLoop sys (o.plant 0) (initial sys ctl o.totalMeas nActs ()) quiet := by
    refine run_agrees (k := quiet.length) (fun x i c hi => ?_) _ _ (by simp [initial])
    simp only [Optics.plant, laterTurb, hi, if_true]
    rfl
  rw [hag] at h1
  refine ⟨a, ?_, (runLoop_length _ _ _ _ _ _ h1).1, C126_quiet o ho dms cmat loopDelay nIters saveSlopes saveDm ctl o.totalMeas nActs quiet sys hsys 0 (fun _ _ _ _ => rfl) z a h1⟩
  congr 1
  obtain ⟨L, hL⟩ := C111_sense_linear o ho
  have hm : ∀ turb x i c y l, (o.plant turb).sense x i c = .ok (y, l) → l.length = o.totalMeas := by
    intro turb x i c y l hs
    rw [hL] at hs
    cases hs
    simp
  have hz0 : Sizes (ctl.map DmCtl.nValid).sum o.totalMeas ctl.length (initial sys ctl o.totalMeas nActs ()) := ⟨by simp [initial], by simp [initial, zeros], by simp [initial], by simp [initial, zeros], by simp [initial], by simp [initial]⟩
  have hz := sizes_run (hm 0) quiet _ _ _ hz0 h1
  obtain ⟨w, v, g1, g2, _⟩ := C126_whole o ho dms cmat loopDelay nIters saveSlopes saveDm ctl o.totalMeas nActs quiet 1 0 0 _ _ _ _ sys hsys h1 h1
  rw [show addTurb 1 0 0 = (0 : ℕ → ℕ → ℕ → ℕ → ℚ) by funext i l a b; simp [addTurb], h1] at g1
  cases g1
  have hlate : Late quiet.length (ctl.map DmCtl.nValid).sum (fun _ _ => True) (initial sys ctl o.totalMeas nActs ()) z := by
    refine ⟨?_, ?_, by simp [initial, zeros], ⟨z.buffer.length, ?_⟩, ?_, ?_, ?_, ?_, trivial⟩
    · have hr := g2.recon
      cases hv : z.recon.actuatorValues with
      | none => exact .inl rfl
      | some q =>
        rw [hv] at hr
        refine .inr ⟨rfl, ?_⟩
        rw [mix_zero hr, hz.recon q hv]
    · rw [mix_zero g2.dmCommands, hz.dmCommands]; rfl
    · rw [show (initial sys ctl o.totalMeas nActs () : Loop.State Unit Stack).buffer = [] from rfl, List.append_nil]
      exact each_zero g2.buffer hz.buffer
    · rw [mix_zero g2.slopes, hz.slopes]; rfl
    · rw [mixS_zero g2.closedCorr, hz.closedCorr]; rfl
    · rw [mixS_zero g2.openCorr, hz.openCorr]; rfl
    · rw [(runLoop_length _ _ _ _ _ _ h1).2]
  have hp : LatePlant quiet.length (fun _ _ => True) (o.plant t) (o.plant (laterTurb quiet.length t)) := by
    intro x x' i c y m y' m' _ e1 e2
    rw [hL] at e1 e2
    cases e1; cases e2
    refine ⟨trivial, ?_⟩
    simp only [laterTurb, show ¬ (i + quiet.length < quiet.length) by omega, if_false, Nat.add_sub_cancel]
  exact (C148_run hp frames hn hlate hz0.buffer hz0.recon h h2).2

/-- Turbulence that is seen in the first frame only. -/
def flash (u : ℕ → ℕ → ℕ → ℚ) : ℕ → ℕ → ℕ → ℕ → ℚ := fun i => if i = 0 then u else 0

private theorem at_append (y x : List (Trace Stack)) (hy : ∀ i p, cmdAt y i p = 0 ∧ measureAt y i p = 0 ∧ corrAt y i p = 0) (i p : ℕ) :
    (cmdAt (y ++ x) i p = if i < y.length then 0 else cmdAt x (i - y.length) p) ∧ (measureAt (y ++ x) i p = if i < y.length then 0 else measureAt x (i - y.length) p) ∧
      (corrAt (y ++ x) i p = if i < y.length then 0 else corrAt x (i - y.length) p) := by
  by_cases hi : i < y.length
  · simp only [hi, if_true]
    have := hy i p
    unfold cmdAt measureAt corrAt at this ⊢
    rwa [List.getElem?_append_left hi]
  · simp only [hi, if_false]
    unfold cmdAt measureAt corrAt
    rw [List.getElem?_append_right (by omega)]
    exact ⟨rfl, rfl, rfl⟩

/-- **C148 (flashes).**  With constant gains and modes a simulation is known from its answers to flashes: what it does in frame `i` is the sum over the frames `k` up to `i` of what it does `i - k` frames after a flash of what was seen in frame `k`. -/
theorem C148_flashes (o : Optics) (ho : Optics.Sound o) (dms : List Persist.Dm) (cmat : List (List ℚ)) (loopDelay : ℤ) (nIters : ℕ) (saveSlopes saveDm : Bool) (ctl : List DmCtl) (nActs N : ℕ) (sys : Sys Stack)
    (hsys : sys = o.sys dms cmat loopDelay nIters saveSlopes saveDm)
    (hrun : ∀ turb, ∃ r, runLoop sys (o.plant turb) (initial sys ctl o.totalMeas nActs ()) (List.replicate N ctl) = .ok r)
    (t : ℕ → ℕ → ℕ → ℕ → ℚ) (s : Loop.State Unit Stack) (x : List (Trace Stack)) (h : runLoop sys (o.plant t) (initial sys ctl o.totalMeas nActs ()) (List.replicate N ctl) = .ok (s, x))
    (z : ℕ → Loop.State Unit Stack) (y : ℕ → List (Trace Stack)) (hy : ∀ k < N, runLoop sys (o.plant (flash (t k))) (initial sys ctl o.totalMeas nActs ()) (List.replicate N ctl) = .ok (z k, y k)) (i p : ℕ) (hi : i < N) :
    cmdAt x i p = ∑ k ∈ Finset.range (i + 1), cmdAt (y k) (i - k) p ∧ measureAt x i p = ∑ k ∈ Finset.range (i + 1), measureAt (y k) (i - k) p ∧ corrAt x i p = ∑ k ∈ Finset.range (i + 1), corrAt (y k) (i - k) p := by
  obtain ⟨M, rfl⟩ : ∃ M, N = M + 1 := ⟨N - 1, by omega⟩
  choose r hr using fun k => hrun (laterTurb k (flash (t k)))
  obtain ⟨s', x', e1, _, e3⟩ := C126_sums o ho dms cmat loopDelay nIters saveSlopes saveDm ctl o.totalMeas nActs (List.replicate (M + 1) ctl) sys hsys (fun _ => 1) (fun k => laterTurb k (flash (t k))) (fun k => (r k).1) (fun k => (r k).2) M
    fun k _ => hr k
  have hag : ∀ i, i < M + 1 → (fun l a b => ∑ k ∈ Finset.range (M + 1), 1 * laterTurb k (flash (t k)) i l a b) = t i := by
    intro i hi
    funext l a b
    rw [Finset.sum_eq_single i]
    · simp [laterTurb, flash]
    · intro k _ hk
      simp only [laterTurb, flash]
      split_ifs with h1 h2
      · simp
      · omega
      · simp
    · intro hk
      exact absurd (Finset.mem_range.mpr hi) hk
  have hxx : x' = x := by
    have e : runLoop sys (o.plant fun i l a b => ∑ k ∈ Finset.range (M + 1), 1 * laterTurb k (flash (t k)) i l a b) (initial sys ctl o.totalMeas nActs ()) (List.replicate (M + 1) ctl) =
        runLoop sys (o.plant t) (initial sys ctl o.totalMeas nActs ()) (List.replicate (M + 1) ctl) := by
      refine run_agrees (k := M + 1) (fun x i c hi => ?_) _ _ (by simp [initial])
      simp only [Optics.plant, hag i hi]
    rw [e, h] at e1
    cases e1
    rfl
  subst hxx
  have one : ∀ k, k < M + 1 → (cmdAt (r k).2 i p = if i < k then 0 else cmdAt (y k) (i - k) p) ∧ (measureAt (r k).2 i p = if i < k then 0 else measureAt (y k) (i - k) p) ∧ (corrAt (r k).2 i p = if i < k then 0 else corrAt (y k) (i - k) p) := by
    intro k hk
    have hrk := hr k
    have hyk := hy k hk
    rw [show List.replicate (M + 1) ctl = List.replicate k ctl ++ List.replicate (M + 1 - k) ctl by rw [← List.replicate_add]; congr 1; omega] at hrk
    rw [show List.replicate (M + 1) ctl = List.replicate (M + 1 - k) ctl ++ List.replicate k ctl by rw [← List.replicate_add]; congr 1; omega] at hyk
    obtain ⟨q, a, b, f1, _, f3⟩ := split_run _ _ _ _ _ hyk
    obtain ⟨w, g1, g2, g3⟩ := C148_later o ho dms cmat loopDelay nIters saveSlopes saveDm ctl nActs (List.replicate k ctl) (List.replicate (M + 1 - k) ctl) (by
      intro f hf _
      rw [List.eq_of_mem_replicate hf]) sys hsys (flash (t k)) q (r k).1 a (r k).2 f1 (by rw [List.length_replicate]; exact hrk)
    rw [List.length_replicate] at g2
    have la : a.length = M + 1 - k := by rw [(runLoop_length _ _ _ _ _ _ f1).1, List.length_replicate]
    have := at_append w a g3 i p
    rw [← g1, g2] at this
    by_cases hik : i < k
    · simp only [hik, if_true] at this ⊢
      exact this
    · simp only [hik, if_false] at this ⊢
      have ha : a[i - k]? = (y k)[i - k]? := by rw [f3, List.getElem?_append_left (by omega)]
      unfold cmdAt measureAt corrAt at this ⊢
      rw [← ha]
      exact this
  obtain ⟨e31, e32, e33⟩ := e3 i p
  have sums : ∀ {A : Type} [AddCommMonoid A] (f g : ℕ → A), (∀ k, k < M + 1 → f k = if i < k then 0 else g k) → ∑ k ∈ Finset.range (M + 1), f k = ∑ k ∈ Finset.range (i + 1), g k := by
    intro A _ f g hfg
    rw [← Finset.sum_subset (s₁ := Finset.range (i + 1)) (s₂ := Finset.range (M + 1)) (f := f)]
    · refine Finset.sum_congr rfl fun k hk => ?_
      have := Finset.mem_range.mp hk
      rw [hfg k (by omega), if_neg (by omega)]
    · intro k hk
      have := Finset.mem_range.mp hk
      exact Finset.mem_range.mpr (by omega)
    · intro k hk hk'
      have h1 := Finset.mem_range.mp hk
      have h2 : ¬ k < i + 1 := fun h => hk' (Finset.mem_range.mpr h)
      rw [hfg k h1, if_pos (by omega)]
  refine ⟨?_, ?_, ?_⟩
  · rw [e31]
    simp only [one_mul]
    exact sums _ _ fun k hk => (one k hk).1
  · rw [e32]
    simp only [one_mul]
    exact sums _ _ fun k hk => (one k hk).2.1
  · rw [e33]
    simp only [one_smul]
    exact sums _ _ fun k hk => (one k hk).2.2

/-! ### Examples -/

private theorem runs (n : ℕ) (turb : ℕ → ℕ → ℕ → ℕ → ℚ) (dms' : List Persist.Dm) (h1 : wholeOptics.calibrate 4 wholeDms = .ok (dms', wholeImat)) (h2 : ∀ d ∈ dms', d.shapes ≠ []) :
    ∃ s' ts, runLoop (wholeOptics.sys dms' wholeCmat 1 100 true false) (wholeOptics.plant turb) (initial (wholeOptics.sys dms' wholeCmat 1 100 true false) (controls dms' [1 / 2, 1 / 4]) wholeOptics.totalMeas 4 ())
      (List.replicate n (controls dms' [1 / 2, 1 / 4])) = .ok (s', ts) := by
  obtain ⟨s', ts, r1, _⟩ := C111_whole wholeOptics whole_sound 4 wholeDms dms' wholeImat h1 (by simp [wholeDms])
    (by intro d hd; simp only [wholeDms, List.mem_cons, List.not_mem_nil, or_false] at hd; rcases hd with rfl | rfl <;> exact ⟨rfl, rfl⟩) h2 wholeCmat rfl (by decide) whole_undoes
    [1 / 2, 1 / 4] rfl 1 100 4 n (by norm_num) true false (fun h => nomatch h) turb
  exact ⟨s', ts, r1⟩

/-- Two sensors and two mirrors: turbulence that begins after 30 frames. -/
example (t : ℕ → ℕ → ℕ → ℕ → ℚ) : ∃ dms' s s' x x', wholeOptics.calibrate 4 wholeDms = .ok (dms', wholeImat) ∧
    let sys := wholeOptics.sys dms' wholeCmat 1 100 true false
    let c := controls dms' [1 / 2, 1 / 4]
    runLoop sys (wholeOptics.plant t) (initial sys c 4 4 ()) (List.replicate 70 c) = .ok (s, x) ∧ runLoop sys (wholeOptics.plant (laterTurb 30 t)) (initial sys c 4 4 ()) (List.replicate 30 c ++ List.replicate 70 c) = .ok (s', x') ∧
      ∃ y, x' = y ++ x ∧ y.length = 30 := by
  obtain ⟨dms', h1, h2⟩ := whole_ok
  obtain ⟨s, x, r1⟩ := runs 70 t dms' h1 h2
  obtain ⟨s', x', r2⟩ := runs (30 + 70) (laterTurb 30 t) dms' h1 h2
  rw [List.replicate_add] at r2
  obtain ⟨y, g1, g2, _⟩ := C148_later wholeOptics whole_sound dms' wholeCmat 1 100 true false (controls dms' [1 / 2, 1 / 4]) 4 (List.replicate 30 (controls dms' [1 / 2, 1 / 4])) (List.replicate 70 (controls dms' [1 / 2, 1 / 4]))
    (by intro f hf _; rw [List.eq_of_mem_replicate hf]) _ rfl t s s' x x' r1 (by rw [List.length_replicate]; exact r2)
  exact ⟨dms', s, s', x, x', h1, r1, r2, y, g1, by rw [g2, List.length_replicate]⟩

/-- And what it does in any frame, from its answers to flashes. -/
example (t : ℕ → ℕ → ℕ → ℕ → ℚ) (i p : ℕ) (hi : i < 100) : ∃ (dms' : List Persist.Dm) (s : Loop.State Unit Stack) (x : List (Trace Stack)) (z : ℕ → Loop.State Unit Stack) (y : ℕ → List (Trace Stack)), wholeOptics.calibrate 4 wholeDms = .ok (dms', wholeImat) ∧
    runLoop (wholeOptics.sys dms' wholeCmat 1 100 true false) (wholeOptics.plant t) (initial (wholeOptics.sys dms' wholeCmat 1 100 true false) (controls dms' [1 / 2, 1 / 4]) 4 4 ()) (List.replicate 100 (controls dms' [1 / 2, 1 / 4])) = .ok (s, x) ∧
    (∀ k < 100, runLoop (wholeOptics.sys dms' wholeCmat 1 100 true false) (wholeOptics.plant (flash (t k))) (initial (wholeOptics.sys dms' wholeCmat 1 100 true false) (controls dms' [1 / 2, 1 / 4]) 4 4 ())
      (List.replicate 100 (controls dms' [1 / 2, 1 / 4])) = .ok (z k, y k)) ∧ cmdAt x i p = ∑ k ∈ Finset.range (i + 1), cmdAt (y k) (i - k) p := by
  obtain ⟨dms', h1, h2⟩ := whole_ok
  obtain ⟨s, x, r1⟩ := runs 100 t dms' h1 h2
  choose z y hy using fun k => runs 100 (flash (t k)) dms' h1 h2
  exact ⟨dms', s, x, z, y, h1, r1, fun k _ => hy k, (C148_flashes wholeOptics whole_sound dms' wholeCmat 1 100 true false (controls dms' [1 / 2, 1 / 4]) 4 100 _ rfl
    (fun turb => let ⟨a, b, e⟩ := runs 100 turb dms' h1 h2; ⟨(a, b), e⟩) t s x r1 z y (fun k _ => hy k) i p hi).1⟩

/-- A loop of one mirror, and one that started two frames earlier (for the theorems about frames and runs). -/
example : Late 2 1 (fun (_ _ : Unit) => True) (⟨⟨none⟩, [0], [], [0, 0], [0], [0], 0, [], [], ()⟩ : Loop.State Unit ℚ) ⟨⟨some [0]⟩, [0], [[0], [0]], [0, 0], [0], [0], 2, [[0, 0], [0, 0]], [[0], [0]], ()⟩ :=
  ⟨.inr ⟨rfl, rfl⟩, rfl, rfl, ⟨2, rfl⟩, rfl, rfl, rfl, rfl, trivial⟩

end Soapy.Props
