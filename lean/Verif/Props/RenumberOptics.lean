/-
C128: how layers, mirrors and sensors are numbered does not matter: a whole simulation.
-/
import Verif.Props.Renumber
import Verif.Props.Pinv

namespace Soapy.Props

open Soapy.Control Soapy.Vec Soapy.Loop Soapy.Whole Soapy.Los Soapy.Mirror

/-- Two simulations that differ only in how layers, mirrors and sensors are numbered: layer `l`, mirror `k` and sensor `q` of the second are layer `ρ l`, mirror `π k` and sensor `τ q` of the first. -/
structure RenOptics (ρ π τ : ℕ → ℕ) (o o' : Optics) : Prop where
  scrn : o'.scrn = o.scrn
  layers : Ren ρ o.layerAlts o'.layerAlts
  mirrors : Ren π o.dmAlts o'.dmAlts
  sensors : Ren τ o.wfss o'.wfss

/-- Number of measurements of each sensor. -/
def sizes (o : Optics) : List ℕ := o.wfss.map LinWfs.nMeas

/-- A surface of mirror `k` of the second simulation and the same surface of mirror `π k` of the first. -/
structure OnMirror (π : ℕ → ℕ) (k : ℕ) (s s' : Stack) : Prop where
  screens : s.1 = 0
  screens' : s'.1 = 0
  others : ∀ m, m ≠ π k → s.2 m = 0
  others' : ∀ m, m ≠ k → s'.2 m = 0
  same : s'.2 k = s.2 (π k)

/-- Matrices with rows in blocks of `ns` and columns in blocks of `ms`: blocks of rows are renumbered by `π`, blocks of columns by `τ`. -/
structure RenMat (π τ : ℕ → ℕ) (ns ns' ms ms' : List ℕ) (M M' : List (List ℚ)) : Prop where
  len : M.length = ns.sum
  len' : M'.length = ns'.sum
  get : ∀ k n, ns'[k]? = some n → ∀ j, j < n → ∃ r r', M[before ns (π k) + j]? = some r ∧ M'[before ns' k + j]? = some r' ∧ RenV τ ms ms' r r'

section
variable {ρ π τ : ℕ → ℕ} {o o' : Optics}

theorem RenOptics.sizes (h : RenOptics ρ π τ o o') : Ren τ (sizes o) (sizes o') := h.sensors.map _

theorem RenOptics.sound (h : RenOptics ρ π τ o o') (ho : Optics.Sound o) : Optics.Sound o' := by
  refine ⟨by rw [h.scrn]; exact ho.1, fun w hw => ?_⟩
  rw [h.scrn]
  exact ho.2 w (h.sensors.perm.mem_iff.mp hw)

private theorem ren_getD {α : Type} {π : ℕ → ℕ} {l l' : List α} (h : Ren π l l') (k : ℕ) (hk : k < l.length) (z : α) : l'.getD k z = l.getD (π k) z := by
  rw [List.getD_eq_getElem?_getD, List.getD_eq_getElem?_getD, (h.get k hk).2]

private theorem ren_view (h : RenOptics ρ π τ o o') (w : LinWfs) (v v' : Stack) (h1 : ∀ l, l < o.layerAlts.length → v'.1 l = v.1 (ρ l)) (h2 : ∀ k, k < o.dmAlts.length → v'.2 k = v.2 (π k)) (i j : ℕ) : view o' w v' i j = view o w v i j := by
  unfold view
  rw [h.scrn, h.layers.len, h.mirrors.len]
  congr 2
  · conv_rhs => rw [← ren_sum_order o.layerAlts.length ρ (fun p hp => (h.layers.get p hp).1) h.layers.inj]
    refine Finset.sum_congr rfl fun l hl => ?_
    rw [ren_getD h.layers l (Finset.mem_range.mp hl), h1 l (Finset.mem_range.mp hl)]
  · conv_rhs => rw [← ren_sum_order o.dmAlts.length π (fun p hp => (h.mirrors.get p hp).1) h.mirrors.inj]
    refine Finset.sum_congr rfl fun l hl => ?_
    rw [ren_getD h.mirrors l (Finset.mem_range.mp hl), h2 l (Finset.mem_range.mp hl)]

private theorem measAt_block (o : Optics) (v : Stack) : ∀ (ws : List LinWfs) (k : ℕ) (w : LinWfs) (j : ℕ), ws[k]? = some w → j < w.nMeas → measAt o ws v (before (ws.map LinWfs.nMeas) k + j) = seen o w v j
  | [], _, _, _, h, _ => by simp at h
  | x :: ws, 0, w, j, h, hj => by
    simp at h
    subst h
    simp [before, measAt, hj]
  | x :: ws, k + 1, w, j, h, hj => by
    have := measAt_block o v ws k w j (by simpa using h) hj
    rw [measAt, if_neg (by simp [before]; omega), ← this]
    congr 1
    simp [before]
    omega

private theorem ren_meas (h : RenOptics ρ π τ o o') (v v' : Stack) (h1 : ∀ l, l < o.layerAlts.length → v'.1 l = v.1 (ρ l)) (h2 : ∀ k, k < o.dmAlts.length → v'.2 k = v.2 (π k)) :
    RenV τ (sizes o) (sizes o') ((List.range o.totalMeas).map (measAt o o.wfss v)) ((List.range o'.totalMeas).map (measAt o' o'.wfss v')) where
  len := by simp [Optics.totalMeas, sizes]
  len' := by simp [Optics.totalMeas, sizes]
  get := by
    intro k n hk j hj
    have g1 := renLocate_eq (sizes o') k n j hk hj
    have g2 := renLocate_eq (sizes o) (τ k) n j (ren_old_block h.sizes k n hk).1 hj
    rw [List.getElem?_map, List.getElem?_map, List.getElem?_range (show _ < o'.totalMeas from g1.2), List.getElem?_range (show _ < o.totalMeas from g2.2)]
    simp only [Option.map_some, Option.some.injEq]
    unfold sizes at hk
    rw [List.getElem?_map, Option.map_eq_some_iff] at hk
    obtain ⟨w, hw, rfl⟩ := hk
    have hlt : k < o.wfss.length := by
      have := (List.getElem?_eq_some_iff.mp hw).1
      rwa [h.sensors.len] at this
    rw [show sizes o' = o'.wfss.map LinWfs.nMeas from rfl, measAt_block o' v' o'.wfss k w j hw hj, show sizes o = o.wfss.map LinWfs.nMeas from rfl,
      measAt_block o v o.wfss (τ k) w j (by rw [← (h.sensors.get k hlt).2, hw]) hj]
    unfold seen
    exact Finset.sum_congr rfl fun x _ => Finset.sum_congr rfl fun y _ => by rw [ren_view h w v v' h1 h2]

private theorem sum_range (c : List Stack) (n : ℕ) (h : c.length = n) : c.sum = ∑ i ∈ Finset.range n, c.getD i 0 := by
  subst h
  induction c with
  | nil => simp
  | cons a c ih =>
    rw [List.sum_cons, List.length_cons, Finset.sum_range_succ', ih]
    simp [add_comm]

private theorem ren_sum {n : ℕ} (hlt : ∀ k, k < n → π k < n) (hinj : ∀ i j, i < n → j < n → π i = π j → i = j) {c c' : List Stack} (h : RenS π n (OnMirror π) c c') :
    c.sum.1 = 0 ∧ c'.sum.1 = 0 ∧ ∀ k, k < n → c'.sum.2 k = c.sum.2 (π k) := by
  have g : ∀ k, k < n → OnMirror π k (c.getD (π k) 0) (c'.getD k 0) := by
    intro k hk
    obtain ⟨s, s', h1, h2, h3⟩ := h.get k hk
    rw [List.getD_eq_getElem?_getD, List.getD_eq_getElem?_getD, h1, h2]
    exact h3
  rw [sum_range c n h.len, sum_range c' n h.len', ← ren_sum_order n π hlt hinj]
  refine ⟨?_, ?_, fun k hk => ?_⟩
  · rw [Prod.fst_sum]
    exact Finset.sum_eq_zero fun k hk => (g k (Finset.mem_range.mp hk)).screens
  · rw [Prod.fst_sum]
    exact Finset.sum_eq_zero fun k hk => (g k (Finset.mem_range.mp hk)).screens'
  · rw [Prod.snd_sum, Prod.snd_sum, Finset.sum_apply, Finset.sum_apply, Finset.sum_eq_single k, Finset.sum_eq_single k]
    · exact (g k hk).same
    · intro m hm hne
      exact (g m (Finset.mem_range.mp hm)).others _ fun e => hne (hinj _ _ (Finset.mem_range.mp hm) hk e.symm)
    · intro hn; exact absurd (Finset.mem_range.mpr hk) hn
    · intro m hm hne
      exact (g m (Finset.mem_range.mp hm)).others' _ (Ne.symm hne)
    · intro hn; exact absurd (Finset.mem_range.mpr hk) hn

/-- **C128 (sensors).**  The same turbulence, with layers, mirrors and sensors numbered in another way: corrections that are the same surfaces in other slots give the same measurements in other blocks. -/
theorem C128_plant (h : RenOptics ρ π τ o o') (ho : Optics.Sound o) (turb turb' : ℕ → ℕ → ℕ → ℕ → ℚ) (ht : ∀ i l, l < o.layerAlts.length → turb' i l = turb i (ρ l)) :
    RenPlant π o.dmAlts.length (RenV τ (sizes o) (sizes o')) (OnMirror π) (fun _ _ => True) (o.plant turb) (o'.plant turb') where
  sense := by
    intro s s' i c c' t m _ hc h1
    rw [sense_eq o ho] at h1
    simp only [Except.ok.injEq, Prod.mk.injEq, true_and] at h1
    subst h1
    refine ⟨(), _, sense_eq o' (h.sound ho) turb' i c', trivial, ?_⟩
    obtain ⟨g1, g2, g3⟩ := ren_sum (fun k hk => (h.mirrors.get k hk).1) h.mirrors.inj hc
    refine ren_meas h _ _ (fun l hl => ?_) (fun k hk => ?_)
    · simp only [Prod.fst_sub, Pi.sub_apply, g1, g2, Pi.zero_apply, sub_zero]
      exact ht i l hl
    · simp only [Prod.snd_sub, Pi.sub_apply, Pi.zero_apply, g3 k hk]

private theorem slot_on (scrn k : ℕ) (a : Arr2) : OnMirror π k (slot scrn (π k) a) (slot scrn k a) where
  screens := rfl
  screens' := rfl
  others := by
    intro m hm
    funext i j
    simp [slot, hm]
  others' := by
    intro m hm
    funext i j
    simp [slot, hm]
  same := by
    funext i j
    simp [slot]

/-- **C128 (poke).**  A surface of mirror `k` is answered as the same surface of mirror `π k` was. -/
theorem C128_poke (h : RenOptics ρ π τ o o') (ho : Optics.Sound o) (k : ℕ) (hk : k < o.dmAlts.length) (a : Arr2) : RenV τ (sizes o) (sizes o') (o.poke (π k) a) (o'.poke k a) := by
  have e : ∀ (o : Optics), Optics.Sound o → ∀ k, o.poke k a = (List.range o.totalMeas).map (measAt o o.wfss (0, -(slot o.scrn k a).2)) := by
    intro o ho k
    unfold Optics.poke
    rw [runWfs_none o ho _ _ fun _ h => h, runWfs_eq o ho _ _ _ fun _ h => h]
    rfl
  rw [e o ho, e o' (h.sound ho), h.scrn]
  refine ren_meas h _ _ (fun _ _ => rfl) fun m hm => ?_
  have hs := slot_on (π := π) o.scrn k a
  change -(slot o.scrn k a).2 m = -(slot o.scrn (π k) a).2 (π m)
  by_cases hmk : m = k
  · subst hmk; rw [hs.same]
  · rw [hs.others' m hmk, hs.others (π m) fun e => hmk (h.mirrors.inj m k hm hk e)]

/-! ### The control matrix -/

/-- **C128 (reconstruction).**  A control matrix with its rows renumbered as the sensors and its columns as the mirrors gives the same commands, renumbered. -/
theorem C128_product {ns ns' ms ms' : List ℕ} (hn : Ren π ns ns') (hm : Ren τ ms ms') {P P' : List (List ℚ)} (h : RenMat τ π ms ms' ns ns' P P') {x x' u : List ℚ} (hx : RenV τ ms ms' x x') (h1 : tdot ns.sum P x = .ok u) :
    ∃ u', tdot ns'.sum P' x' = .ok u' ∧ RenV π ns ns' u u' := by
  have row : ∀ i, i < ms.sum → RenV π ns ns' (P.getD (renPlace τ ms ms' i) []) (P'.getD i []) := by
    intro i hi
    obtain ⟨n, g1, g2, g3⟩ := renLocate_spec ms' i (by rw [hm.perm.sum_eq]; exact hi)
    obtain ⟨r, r', r1, r2, r3⟩ := h.get _ n g1 _ g2
    rw [g3] at r2
    rw [List.getD_eq_getElem?_getD, List.getD_eq_getElem?_getD, r2, renPlace, r1]
    exact r3
  have hrow : ∀ r ∈ P, r.length = ns.sum := by
    intro r hr
    obtain ⟨i, hi, rfl⟩ := List.mem_iff_getElem.mp hr
    rw [h.len] at hi
    have : i ∈ (Finset.range ms.sum).image (renPlace τ ms ms') := by
      rw [ren_range_image _ _ (renPlace_lt hm) (renPlace_inj hm)]
      exact Finset.mem_range.mpr hi
    obtain ⟨p, hp, rfl⟩ := Finset.mem_image.mp this
    have := (row p (Finset.mem_range.mp hp)).len
    rwa [List.getD_eq_getElem?_getD, List.getElem?_eq_getElem (by rw [h.len]; exact hi)] at this
  have hrow' : ∀ r ∈ P', r.length = ns'.sum := by
    intro r hr
    obtain ⟨i, hi, rfl⟩ := List.mem_iff_getElem.mp hr
    have := (row i (by rw [h.len', hm.perm.sum_eq] at hi; exact hi)).len'
    rwa [List.getD_eq_getElem?_getD, List.getElem?_eq_getElem hi] at this
  obtain ⟨c, c1, c2, c3⟩ := tdot_get ns.sum P x (by rw [h.len, hx.len]) hrow
  obtain ⟨c', d1, d2, d3⟩ := tdot_get ns'.sum P' x' (by rw [h.len', hx.len']) hrow'
  rw [h1, Except.ok.injEq] at c1
  subst c1
  refine ⟨c', d1, RenV.of hn c2 (by rw [d2, hn.perm.sum_eq]) fun p hp => ?_⟩
  have hp' : p < ns'.sum := by rw [hn.perm.sum_eq]; exact hp
  have hq := renPlace_lt hn p hp
  have e : c'.getD p 0 = u.getD (renPlace π ns ns' p) 0 := by
    rw [c3 _ hq, d3 p hp', h.len, h.len', hm.perm.sum_eq]
    conv_rhs => rw [← ren_sum_order ms.sum (renPlace τ ms ms') (renPlace_lt hm) (renPlace_inj hm)]
    refine Finset.sum_congr rfl fun i hi => ?_
    rw [Finset.mem_range] at hi
    have e1 := (row i hi).at hn p hp
    have e2 := hx.at hm i hi
    simp only [List.getD_eq_getElem?_getD] at e1 e2 ⊢
    rw [e1, e2]
  rw [List.getD_eq_getElem?_getD, List.getD_eq_getElem?_getD, List.getElem?_eq_getElem (by omega), List.getElem?_eq_getElem (by omega)] at e
  simp only [Option.getD_some] at e
  rw [List.getElem?_eq_getElem (by omega), List.getElem?_eq_getElem (by omega), e]

/-- Number of actuators of each mirror. -/
def actuators (dms : List Persist.Dm) : List ℕ := dms.map fun d => d.shapes.length

/-- **C128 (mirrors and control matrix).** -/
theorem C128_sys (h : RenOptics ρ π τ o o') {dms dms' : List Persist.Dm} (hd : Ren π dms dms') {P P' : List (List ℚ)} (hP : RenMat τ π (sizes o) (sizes o') (actuators dms) (actuators dms') P P') (delay : ℤ) (nIters : ℕ) (saveSlopes saveDm : Bool) :
    RenSys π (actuators dms) (actuators dms') (RenV τ (sizes o) (sizes o')) (OnMirror π) (o.sys dms P delay nIters saveSlopes saveDm) (o'.sys dms' P' delay nIters saveSlopes saveDm) where
  surface := by
    intro k hk c s h1
    have hk : k < dms.length := by simpa [actuators] using hk
    simp only [Optics.sys] at h1 ⊢
    rw [(hd.get k hk).2, h.scrn]
    cases e1 : dms[π k]? with
    | none => rw [e1] at h1; simp at h1
    | some d =>
      rw [e1] at h1
      simp only at h1 ⊢
      cases e2 : dmFrame o.scrn d.nElem 0 d.shapes (zero2 o.scrn) c with
      | error e => rw [e2] at h1; simp at h1
      | ok a =>
        rw [e2] at h1
        simp only [Except.ok.injEq] at h1 ⊢
        subst h1
        exact ⟨_, rfl, slot_on _ _ _⟩
  product := fun m m' u hm h1 => C128_product (hd.map _) h.sizes hP hm h1
  loopDelay := rfl
  nIters := rfl
  saveSlopes := rfl
  saveDmCommands := rfl

/-! ### Calibration -/

private theorem absMax_perm {a b : List ℚ} (h : b.Perm a) : absMax b = absMax a := by
  unfold absMax
  have hp := h.map abs
  cases e : (a.map abs).max? with
  | none =>
    rw [List.max?_eq_none_iff] at e
    rw [e] at hp
    rw [hp.eq_nil]
    rfl
  | some m =>
    rw [List.max?_eq_some_iff] at e ⊢
    exact ⟨hp.mem_iff.mpr e.1, fun x hx => e.2 x (hp.mem_iff.mp hx)⟩

private theorem kept_length {α : Type} (shapes kept : List α) (v : List Bool) (n : ℕ) (h : setValid shapes v = .ok (n, kept)) : kept.length = v.count true := by
  have gen : ∀ (v : List Bool) (i : ℕ) (r : List α), setValid.go shapes i v = .ok r → r.length = v.count true := by
    intro v
    induction v with
    | nil => intro i r h; simp only [setValid.go, Except.ok.injEq] at h; subst h; rfl
    | cons b v ih =>
      intro i r h
      cases b
      · simpa using ih (i + 1) r (by simpa [setValid.go] using h)
      · simp only [setValid.go, if_true] at h
        cases e1 : shapes[i]? with
        | none => rw [e1] at h; cases h
        | some s =>
          rw [e1] at h
          dsimp only at h
          cases e2 : setValid.go shapes (i + 1) v with
          | error e => rw [e2] at h; cases h
          | ok q =>
            rw [e2] at h
            simp only [Except.ok.injEq] at h
            subst h
            simp [ih (i + 1) q e2]
  unfold setValid at h
  cases hg : setValid.go shapes 0 v with
  | error e => rw [hg] at h; cases h
  | ok r =>
    rw [hg] at h
    simp only [Except.ok.injEq, Prod.mk.injEq] at h
    rw [← h.2]
    exact gen v 0 r hg

private theorem mapM_rel {R : List ℚ → List ℚ → Prop} {f g : ℕ → Except PyErr (List ℚ)} (h : ∀ i a, f i = .ok a → ∃ b, g i = .ok b ∧ R a b) : ∀ (l : List ℕ) (r : List (List ℚ)), l.mapM f = .ok r → ∃ r', l.mapM g = .ok r' ∧ List.Forall₂ R r r'
  | [], r, h1 => by
    cases h1
    exact ⟨[], rfl, .nil⟩
  | x :: l, r, h1 => by
    rw [List.mapM_cons] at h1 ⊢
    cases e1 : f x with
    | error e => rw [e1] at h1; cases h1
    | ok a =>
      obtain ⟨b, e2, e3⟩ := h x a e1
      rw [e1] at h1
      rw [e2]
      cases e4 : l.mapM f with
      | error e =>
        simp only [bind, Except.bind, e4] at h1
        cases h1
      | ok r0 =>
        obtain ⟨r1, e5, e6⟩ := mapM_rel h l r0 e4
        simp only [bind, Except.bind, e4] at h1
        simp only [bind, Except.bind, e5]
        cases h1
        exact ⟨b :: r1, rfl, .cons e3 e6⟩

private theorem rel_set {α : Type} {R : α → α → Prop} {x y : α} (hx : R x y) {a b : List α} (i : ℕ) (h : List.Forall₂ R a b) : List.Forall₂ R (a.set i x) (b.set i y) := by
  induction h generalizing i with
  | nil => exact List.Forall₂.nil
  | cons h hs ih =>
    cases i with
    | zero => exact List.Forall₂.cons hx hs
    | succ i => exact List.Forall₂.cons h (ih i)

private theorem rel_compact {α : Type} {R : α → α → Prop} {rows rows' : List α} (h : List.Forall₂ R rows rows') : ∀ (vs : List Bool) (k : ℕ) {acc acc' : List α}, List.Forall₂ R acc acc' → List.Forall₂ R (compact rows vs k acc) (compact rows' vs k acc') := by
  induction h with
  | nil => intro vs k acc acc' ha; simpa [compact] using ha
  | cons h hs ih =>
    intro vs k acc acc' ha
    cases vs with
    | nil => simpa [compact] using ha
    | cons v vs =>
      simp only [compact]
      split_ifs
      · exact ih vs _ (rel_set h k ha)
      · exact ih vs _ ha

private theorem rel_flags {ms ms' : List ℕ} (hm : Ren τ ms ms') {a b : List (List ℚ)} (h : List.Forall₂ (RenV τ ms ms') a b) : validFlags b = validFlags a := by
  have hf : b.flatten.Perm a.flatten := by
    induction h with
    | nil => exact List.Perm.refl _
    | cons h _ ih => exact List.Perm.append (h.perm hm) ih
  unfold validFlags
  rw [absMax_perm hf]
  cases absMax a.flatten with
  | none => rfl
  | some m =>
    simp only [Except.ok.injEq]
    induction h with
    | nil => rfl
    | cons h hs ih =>
      have hf' : ∀ {a b : List (List ℚ)}, List.Forall₂ (RenV τ ms ms') a b → b.flatten.Perm a.flatten := by
        intro a b h
        induction h with
        | nil => exact List.Perm.refl _
        | cons h _ ih => exact List.Perm.append (h.perm hm) ih
      rw [List.map_cons, List.map_cons, absMax_perm (h.perm hm), ih (hf' hs)]

private theorem ren_makeDmIMat {ms ms' : List ℕ} (hm : Ren τ ms ms') (nActs : ℕ) (surface : List ℚ → Except PyErr Arr2) {sense sense' : Arr2 → List ℚ} (hs : ∀ a, RenV τ ms ms' (sense a) (sense' a)) {fl : List Bool} {rows : List (List ℚ)}
    (h : makeDmIMat nActs ms.sum surface sense = .ok (fl, rows)) : ∃ rows', makeDmIMat nActs ms'.sum surface sense' = .ok (fl, rows') ∧ List.Forall₂ (RenV τ ms ms') rows rows' ∧ rows.length = fl.count true := by
  unfold makeDmIMat at h ⊢
  cases e1 : (List.range nActs).mapM (pokeRow nActs surface sense) with
  | error e => rw [e1] at h; simp at h
  | ok m =>
    obtain ⟨m', e2, e3⟩ := mapM_rel (R := RenV τ ms ms') (g := pokeRow nActs surface sense') (fun i a ha => by
      unfold pokeRow at ha ⊢
      cases e : surface (unit nActs i) with
      | error e' => rw [e] at ha; simp at ha
      | ok x =>
        rw [e] at ha
        simp only [Except.ok.injEq] at ha ⊢
        subst ha
        exact ⟨_, rfl, (hs x).map _⟩) _ _ e1
    rw [e1] at h
    rw [e2]
    simp only at h ⊢
    rw [rel_flags hm e3]
    cases e4 : validFlags m with
    | error e => rw [e4] at h; simp at h
    | ok f =>
      rw [e4] at h
      simp only [Except.ok.injEq, Prod.mk.injEq] at h ⊢
      obtain ⟨rfl, rfl⟩ := h
      have rep : ∀ n : ℕ, List.Forall₂ (RenV τ ms ms') (List.replicate n (zeros ms.sum)) (List.replicate n (zeros ms'.sum)) := by
        intro n
        induction n with
        | zero => exact List.Forall₂.nil
        | succ n ih => exact List.Forall₂.cons (renV_replicate hm 0) ih
      exact ⟨_, ⟨rfl, rfl⟩, rel_compact e3 _ _ (rep _), by rw [Persist.compact_length]; simp⟩

/-- What `makeIMat` does, mirror by mirror. -/
private theorem makeIMat_iff (cfg : Persist.Cfg) (sense : ℕ → Arr2 → List ℚ) : ∀ (dms : List Persist.Dm) (i : ℕ) (D : List Persist.Dm) (M : List (List ℚ)),
    Persist.makeIMat cfg sense i dms = .ok (D, M) ↔ ∃ blocks : List (List (List ℚ)), M = blocks.flatten ∧ blocks.length = dms.length ∧ D.length = dms.length ∧
      ∀ (k : ℕ) (d : Persist.Dm), dms[k]? = some d → ∃ fl rows n kept, blocks[k]? = some rows ∧ makeDmIMat d.nActs cfg.totalMeas (fun c => dmFrame cfg.scrn d.nElem 0 d.shapes (zero2 cfg.scrn) c) (sense (i + k)) = .ok (fl, rows) ∧
        setValid d.shapes fl = .ok (n, kept) ∧ D[k]? = some { d with valid := fl, shapes := kept } := by
  intro dms
  induction dms with
  | nil =>
    intro i D M
    constructor
    · intro h
      simp only [Persist.makeIMat, Except.ok.injEq, Prod.mk.injEq] at h
      obtain ⟨rfl, rfl⟩ := h
      exact ⟨[], rfl, rfl, rfl, by simp⟩
    · rintro ⟨blocks, h1, h2, h3, _⟩
      rw [List.length_nil, List.length_eq_zero_iff] at h2 h3
      subst h1 h2 h3
      rfl
  | cons d ds ih =>
    intro i D M
    rw [Persist.makeIMat]
    constructor
    · intro h
      cases h1 : makeDmIMat d.nActs cfg.totalMeas (fun c => dmFrame cfg.scrn d.nElem 0 d.shapes (zero2 cfg.scrn) c) (sense i) with
      | error e => rw [h1] at h; cases h
      | ok p =>
        obtain ⟨flags, rows⟩ := p
        rw [h1] at h
        dsimp only at h
        cases h2 : setValid d.shapes flags with
        | error e => rw [h2] at h; cases h
        | ok q =>
          obtain ⟨n, kept⟩ := q
          rw [h2] at h
          dsimp only at h
          cases h3 : Persist.makeIMat cfg sense (i + 1) ds with
          | error e => rw [h3] at h; cases h
          | ok q =>
            obtain ⟨ds', rows'⟩ := q
            rw [h3] at h
            simp only [Except.ok.injEq, Prod.mk.injEq] at h
            obtain ⟨rfl, rfl⟩ := h
            obtain ⟨bl, b1, b2, b3, b4⟩ := (ih _ _ _).mp h3
            refine ⟨rows :: bl, by simp [b1], by simp [b2], by simp [b3], ?_⟩
            intro k x hx
            cases k with
            | zero =>
              simp at hx
              subst hx
              exact ⟨flags, rows, n, kept, rfl, h1, h2, rfl⟩
            | succ k =>
              have := b4 k x (by simpa using hx)
              rw [show i + 1 + k = i + (k + 1) by omega] at this
              simpa using this
    · rintro ⟨blocks, h1, h2, h3, h4⟩
      obtain ⟨fl, rows, n, kept, g1, g2, g3, g4⟩ := h4 0 d rfl
      cases blocks with
      | nil => simp at h2
      | cons b bl =>
        cases D with
        | nil => simp at h3
        | cons x D =>
          simp at g1 g4
          subst g1 g4
          rw [Nat.add_zero] at g2
          rw [g2]
          dsimp only
          rw [g3]
          dsimp only
          rw [(ih (i + 1) D bl.flatten).mpr ⟨bl, rfl, by simpa using h2, by simpa using h3, fun k y hy => by
            have := h4 (k + 1) y (by simpa using hy)
            rw [show i + (k + 1) = i + 1 + k by omega] at this
            simpa using this⟩]
          simp [h1]

/-- **C128 (calibration).**  A simulation with its layers, mirrors and sensors numbered in another way keeps the same actuators and measures the same interaction matrix, with blocks of rows renumbered as the mirrors and blocks of columns as the sensors. -/
theorem C128_calibrate (h : RenOptics ρ π τ o o') (ho : Optics.Sound o) (totalActs totalActs' : ℕ) {dms dms' D : List Persist.Dm} (hl : dms.length = o.dmAlts.length) (hd : Ren π dms dms') {M : List (List ℚ)} (hc : o.calibrate totalActs dms = .ok (D, M)) :
    ∃ D' M', o'.calibrate totalActs' dms' = .ok (D', M') ∧ Ren π D D' ∧ RenMat π τ (actuators D) (actuators D') (sizes o) (sizes o') M M' := by
  unfold Optics.calibrate at hc ⊢
  obtain ⟨blocks, b1, b2, b3, b4⟩ := (makeIMat_iff _ _ _ _ _ _).mp hc
  have new : ∀ k : ℕ, k < dms.length → ∃ d fl rows rows' n kept, dms'[k]? = some d ∧ D[π k]? = some { d with valid := fl, shapes := kept } ∧ blocks[π k]? = some rows ∧ List.Forall₂ (RenV τ (sizes o) (sizes o')) rows rows' ∧ rows.length = kept.length ∧
      makeDmIMat d.nActs o'.totalMeas (fun c => dmFrame o'.scrn d.nElem 0 d.shapes (zero2 o'.scrn) c) (o'.poke k) = .ok (fl, rows') ∧ setValid d.shapes fl = .ok (n, kept) := by
    intro k hk
    obtain ⟨hk1, hk2⟩ := hd.get k hk
    obtain ⟨fl, rows, n, kept, c1, c2, c3, c4⟩ := b4 (π k) _ (List.getElem?_eq_getElem hk1)
    rw [Nat.zero_add] at c2
    obtain ⟨rows', e1, e2, e3⟩ := ren_makeDmIMat h.sizes _ _ (sense' := o'.poke k) (fun a => C128_poke h ho k (by omega) a) c2
    refine ⟨dms[π k], fl, rows, rows', n, kept, by rw [hk2, List.getElem?_eq_getElem hk1], c4, c1, e2, ?_, ?_, c3⟩
    · rw [e3, kept_length _ _ _ _ c3]
    · rw [h.scrn]; exact e1
  have : Nonempty Persist.Dm := ⟨⟨0, 0, [], []⟩⟩
  choose! d fl rows rows' n kept n1 n2 n3 n4 n5 n6 n7 using new
  have hD' : ∀ k, k < dms.length → ((List.range dms.length).map fun k => ({ d k with valid := fl k, shapes := kept k } : Persist.Dm))[k]? = some { d k with valid := fl k, shapes := kept k } := by
    intro k hk
    rw [List.getElem?_map, List.getElem?_range hk]
    rfl
  have hB' : ∀ k, k < dms.length → ((List.range dms.length).map rows')[k]? = some (rows' k) := by
    intro k hk
    rw [List.getElem?_map, List.getElem?_range hk]
    rfl
  have hren : Ren π D ((List.range dms.length).map fun k => ({ d k with valid := fl k, shapes := kept k } : Persist.Dm)) := by
    refine ⟨by simp [b3], by rw [b3]; exact hd.inj, fun k hk => ?_⟩
    rw [b3] at hk ⊢
    exact ⟨(hd.get k hk).1, by rw [hD' k hk, n2 k hk]⟩
  refine ⟨_, ((List.range dms.length).map rows').flatten, (makeIMat_iff _ _ _ _ _ _).mpr ⟨(List.range dms.length).map rows', rfl, by simp [hd.len], ?_, ?_⟩, hren, ?_⟩
  · simp [hd.len]
  · intro k x hx
    have hk : k < dms.length := by
      have := (List.getElem?_eq_some_iff.mp hx).1
      rwa [hd.len] at this
    rw [n1 k hk, Option.some.injEq] at hx
    subst hx
    exact ⟨fl k, rows' k, n k, kept k, hB' k hk, by rw [Nat.zero_add]; exact n6 k hk, n7 k hk, hD' k hk⟩
  · have surj : ∀ m, m < dms.length → ∃ k, k < dms.length ∧ π k = m := by
      intro m hm
      have : m ∈ (Finset.range dms.length).image π := by
        rw [ren_range_image _ _ (fun p hp => (hd.get p hp).1) hd.inj]
        exact Finset.mem_range.mpr hm
      obtain ⟨k, hk, rfl⟩ := Finset.mem_image.mp this
      exact ⟨k, Finset.mem_range.mp hk, rfl⟩
    have l1 : blocks.map List.length = actuators D := by
      apply List.ext_getElem?
      intro m
      unfold actuators
      rw [List.getElem?_map, List.getElem?_map]
      by_cases hm : m < dms.length
      · obtain ⟨k, hk, rfl⟩ := surj m hm
        rw [n3 k hk, n2 k hk]
        simp [n5 k hk]
      · rw [List.getElem?_eq_none (by omega), List.getElem?_eq_none (by omega)]
        rfl
    have l2 : ((List.range dms.length).map rows').map List.length = actuators ((List.range dms.length).map fun k => ({ d k with valid := fl k, shapes := kept k } : Persist.Dm)) := by
      unfold actuators
      rw [List.map_map, List.map_map]
      refine List.map_congr_left fun k hk => ?_
      rw [List.mem_range] at hk
      simp only [Function.comp]
      rw [← (n4 k hk).length_eq, n5 k hk]
    refine ⟨by rw [b1, List.length_flatten, l1], by rw [List.length_flatten, l2], ?_⟩
    intro k m hk j hj
    have hkl : k < dms.length := by
      have := (List.getElem?_eq_some_iff.mp hk).1
      simpa [actuators] using this
    have hm : m = (rows' k).length := by
      rw [← l2, List.getElem?_map, hB' k hkl] at hk
      simpa using hk.symm
    subst hm
    have hj' : j < (rows k).length := by rw [(n4 k hkl).length_eq]; exact hj
    refine ⟨(rows k)[j], (rows' k)[j], ?_, ?_, (List.forall₂_iff_get.mp (n4 k hkl)).2 j hj' hj⟩
    · rw [b1, show before (actuators D) (π k) = rowsBefore blocks (π k) by rw [← l1, before, rowsBefore, List.map_take], flatten_get blocks (π k) j _ (n3 k hkl) hj', List.getElem?_eq_getElem hj']
    · rw [show before (actuators ((List.range dms.length).map fun k => ({ d k with valid := fl k, shapes := kept k } : Persist.Dm))) k = rowsBefore ((List.range dms.length).map rows') k by rw [← l2, before, rowsBefore, List.map_take],
        flatten_get _ k j _ (hB' k hkl) hj, List.getElem?_eq_getElem hj]

/-! ### Making the control matrix -/

open Matrix Soapy.Pinv in
private noncomputable def orderSvd {a m : ℕ} {M : Matrix (Fin a) (Fin m) ℝ} (S : Svd M) (e : Fin a ≃ Fin a) (f : Fin m ≃ Fin m) : Svd (M.submatrix e f) where
  u := S.u.submatrix e id
  s := S.s
  vt := S.vt.submatrix id f
  orthU := by
    rw [Matrix.transpose_submatrix, Matrix.submatrix_mul_equiv, S.orthU]
    simp
  orthV := by
    rw [Matrix.transpose_submatrix, Matrix.submatrix_mul_equiv, S.orthV]
    simp
  nonneg := S.nonneg
  eq := by
    conv_rhs => rw [← S.eq]
    rfl

open Soapy.Pinv in
/-- **C128 (pseudo-inverse).**  If rows and columns of the interaction matrix are put in another order, `pinv` gives the same control matrix with its columns and rows in that order: the same modes are dropped, whatever the conditioning. -/
theorem C128_pinv {a m : ℕ} {M : Matrix (Fin a) (Fin m) ℝ} (S : Svd M) (e : Fin a ≃ Fin a) (f : Fin m ≃ Fin m) (T : Svd (M.submatrix e f)) (r : ℝ) (hr : 0 ≤ r) : T.pinv r = (S.pinv r).submatrix f e := by
  rw [C125_unique T (orderSvd S e f) r hr]
  rfl

/-- A matrix given by its rows. -/
def entries (a m : ℕ) (M : List (List ℚ)) : Matrix (Fin a) (Fin m) ℝ := Matrix.of fun p q => (((M.getD p []).getD q 0 : ℚ) : ℝ)

open Soapy.Pinv in
/-- `P` is the control matrix that `numpy.linalg.pinv(M, rcond)` makes of an interaction matrix of `a` actuators and `m` measurements. -/
def ControlOf (rcond : ℝ) (a m : ℕ) (M P : List (List ℚ)) : Prop := P.length = m ∧ (∀ row ∈ P, row.length = a) ∧ ∃ S : Svd (entries a m M), entries m a P = S.pinv rcond

private noncomputable def orderEquiv {π : ℕ → ℕ} {ns ns' : List ℕ} (h : Ren π ns ns') : Fin ns.sum ≃ Fin ns.sum :=
  Equiv.ofBijective (fun p => ⟨renPlace π ns ns' p, renPlace_lt h p p.2⟩) (Finite.injective_iff_bijective.mp fun p q e => Fin.ext (renPlace_inj h p q p.2 q.2 (by simpa using e)))

private theorem orderEquiv_val {π : ℕ → ℕ} {ns ns' : List ℕ} (h : Ren π ns ns') (p : Fin ns.sum) : ((orderEquiv h p : Fin ns.sum) : ℕ) = renPlace π ns ns' p := rfl

private theorem renMat_entries {ns ns' ms ms' : List ℕ} (hn : Ren π ns ns') (hm : Ren τ ms ms') {M M' : List (List ℚ)} (h : RenMat π τ ns ns' ms ms' M M') : entries ns.sum ms.sum M' = (entries ns.sum ms.sum M).submatrix (orderEquiv hn) (orderEquiv hm) := by
  ext p q
  simp only [entries, Matrix.of_apply, Matrix.submatrix_apply, orderEquiv_val]
  obtain ⟨n, g1, g2, g3⟩ := renLocate_spec ns' p (by rw [hn.perm.sum_eq]; exact p.2)
  obtain ⟨r, r', r1, r2, r3⟩ := h.get _ n g1 _ g2
  rw [g3] at r2
  have e := r3.at hm q q.2
  simp only [List.getD_eq_getElem?_getD]
  rw [r2, renPlace, r1]
  simp only [Option.getD_some]
  rw [e]

private theorem renMat_of {ns ns' ms ms' : List ℕ} (hn : Ren π ns ns') (hm : Ren τ ms ms') {P P' : List (List ℚ)} (l : P.length = ms.sum) (l' : P'.length = ms.sum) (c : ∀ r ∈ P, r.length = ns.sum) (c' : ∀ r ∈ P', r.length = ns.sum)
    (h : entries ms.sum ns.sum P' = (entries ms.sum ns.sum P).submatrix (orderEquiv hm) (orderEquiv hn)) : RenMat τ π ms ms' ns ns' P P' := by
  refine ⟨l, by rw [l', hm.perm.sum_eq], fun k n hk j hj => ?_⟩
  have g1 := renLocate_eq ms' k n j hk hj
  have g2 := renLocate_eq ms (τ k) n j (ren_old_block hm k n hk).1 hj
  have i1 : before ms' k + j < P'.length := by rw [l', ← hm.perm.sum_eq]; exact g1.2
  have i2 : before ms (τ k) + j < P.length := by rw [l]; exact g2.2
  refine ⟨_, _, List.getElem?_eq_getElem i2, List.getElem?_eq_getElem i1, RenV.of hn (c _ (List.getElem_mem i2)) (c' _ (List.getElem_mem i1)) fun p hp => ?_⟩
  have e := congrFun (congrFun h ⟨before ms' k + j, by rw [← hm.perm.sum_eq]; exact g1.2⟩) ⟨p, hp⟩
  simp only [entries, Matrix.of_apply, Matrix.submatrix_apply, orderEquiv_val, Rat.cast_inj] at e
  have e3 : renPlace τ ms ms' (before ms' k + j) = before ms (τ k) + j := by rw [renPlace, g1.1]
  rw [e3] at e
  have hq := renPlace_lt hn p hp
  have t1 := c _ (List.getElem_mem i2)
  have t2 := c' _ (List.getElem_mem i1)
  simp only [List.getD_eq_getElem?_getD, List.getElem?_eq_getElem i1, List.getElem?_eq_getElem i2, Option.getD_some] at e
  rw [List.getElem?_eq_getElem (by omega), List.getElem?_eq_getElem (by omega)] at e
  simp only [Option.getD_some] at e
  rw [List.getElem?_eq_getElem (by omega), List.getElem?_eq_getElem (by omega), e]

/-- **C128 (control matrix).**  The control matrix of the renumbered interaction matrix is the control matrix renumbered. -/
theorem C128_control {ns ns' ms ms' : List ℕ} (hn : Ren π ns ns') (hm : Ren τ ms ms') {M M' P P' : List (List ℚ)} (h : RenMat π τ ns ns' ms ms' M M') (r : ℝ) (hr : 0 ≤ r) (hP : ControlOf r ns.sum ms.sum M P) (hP' : ControlOf r ns'.sum ms'.sum M' P') :
    RenMat τ π ms ms' ns ns' P P' := by
  rw [hn.perm.sum_eq, hm.perm.sum_eq] at hP'
  obtain ⟨l, c, S, hS⟩ := hP
  obtain ⟨l', c', T, hT⟩ := hP'
  refine renMat_of hn hm l l' c c' ?_
  revert T
  rw [renMat_entries hn hm h]
  intro T hT
  rw [hT, hS]
  exact C128_pinv S _ _ T r hr

/-- It has one if the first has. -/
theorem C128_control_exists {ns ns' ms ms' : List ℕ} (hn : Ren π ns ns') (hm : Ren τ ms ms') {M M' P : List (List ℚ)} (h : RenMat π τ ns ns' ms ms' M M') (r : ℝ) (hP : ControlOf r ns.sum ms.sum M P) : ∃ P', ControlOf r ns'.sum ms'.sum M' P' := by
  rw [hn.perm.sum_eq, hm.perm.sum_eq]
  obtain ⟨l, c, S, hS⟩ := hP
  have e : entries ms.sum ns.sum ((List.range ms.sum).map fun q => (List.range ns.sum).map fun p => (P.getD (renPlace τ ms ms' q) []).getD (renPlace π ns ns' p) 0) = (entries ms.sum ns.sum P).submatrix (orderEquiv hm) (orderEquiv hn) := by
    ext q p
    simp only [entries, Matrix.of_apply, Matrix.submatrix_apply, orderEquiv_val]
    simp [List.getD_eq_getElem?_getD, q.2, p.2]
  refine ⟨(List.range ms.sum).map fun q => (List.range ns.sum).map fun p => (P.getD (renPlace τ ms ms' q) []).getD (renPlace π ns ns' p) 0, by simp, by simp, ?_⟩
  rw [e, renMat_entries hn hm h]
  exact ⟨orderSvd S _ _, by rw [hS]; rfl⟩

/-! ### A whole simulation -/

/-- **C128.**  Two simulations that differ only in the order in which the configuration lists layers, mirrors and sensors: both measure their interaction matrices, invert them with the same conditioning and close the loop.  If the first runs so does the second, and in every frame commands, measurements and corrections are those of the first in the other order. -/
theorem C128_whole (h : RenOptics ρ π τ o o') (ho : Optics.Sound o) (totalActs totalActs' : ℕ) {dms dms' D D' : List Persist.Dm} (hl : dms.length = o.dmAlts.length) (hd : Ren π dms dms') {M M' : List (List ℚ)} (hc : o.calibrate totalActs dms = .ok (D, M)) (hc' : o'.calibrate totalActs' dms' = .ok (D', M'))
    (r : ℝ) (hr : 0 ≤ r) {P P' : List (List ℚ)} (hP : ControlOf r (actuators D).sum (sizes o).sum M P) (hP' : ControlOf r (actuators D').sum (sizes o').sum M' P') (delay : ℤ) (nIters nActs : ℕ) (saveSlopes saveDm : Bool)
    (turb turb' : ℕ → ℕ → ℕ → ℕ → ℚ) (ht : ∀ i l, l < o.layerAlts.length → turb' i l = turb i (ρ l)) {ctl ctl' : List DmCtl} (hctl : RenDms π (actuators D) (actuators D') ctl ctl') {frames frames' : List (List DmCtl)} (hf : List.Forall₂ (RenDms π (actuators D) (actuators D')) frames frames')
    {s : Loop.State Unit Stack} {t : List (Trace Stack)} (hrun : runLoop (o.sys D P delay nIters saveSlopes saveDm) (o.plant turb) (initial (o.sys D P delay nIters saveSlopes saveDm) ctl o.totalMeas nActs ()) frames = .ok (s, t)) :
    ∃ s' t', runLoop (o'.sys D' P' delay nIters saveSlopes saveDm) (o'.plant turb') (initial (o'.sys D' P' delay nIters saveSlopes saveDm) ctl' o'.totalMeas nActs ()) frames' = .ok (s', t') ∧
      List.Forall₂ (RenTrace π (actuators D) (actuators D') (RenV τ (sizes o) (sizes o')) (OnMirror π)) t t' := by
  obtain ⟨D₁, M₁, e1, e2, e3⟩ := C128_calibrate h ho totalActs totalActs' hl hd hc
  rw [hc', Except.ok.injEq, Prod.mk.injEq] at e1
  obtain ⟨rfl, rfl⟩ := e1
  have hmat := C128_control (e2.map _) h.sizes e3 r hr hP hP'
  have hsys := C128_sys h e2 hmat delay nIters saveSlopes saveDm
  have hlen : (actuators D).length = o.dmAlts.length := by
    obtain ⟨_, _, _, b3, _⟩ := (makeIMat_iff _ _ _ _ _ _).mp hc
    rw [actuators, List.length_map, b3, hl]
  have hadd : ∀ k a b a' b', OnMirror π k a a' → OnMirror π k b b' → OnMirror π k (a + b) (a' + b') := by
    intro k a b a' b' x y
    exact ⟨by rw [Prod.fst_add, x.screens, y.screens, add_zero], by rw [Prod.fst_add, x.screens', y.screens', add_zero], fun m hm => by rw [Prod.snd_add, Pi.add_apply, x.others m hm, y.others m hm, add_zero],
      fun m hm => by rw [Prod.snd_add, Pi.add_apply, x.others' m hm, y.others' m hm, add_zero], by rw [Prod.snd_add, Pi.add_apply, x.same, y.same]; rfl⟩
  have hpl := C128_plant h ho turb turb' ht
  rw [← hlen] at hpl
  obtain ⟨s', t', r1, _, r2⟩ := C128_loop hadd (fun m m' hq => by rw [hq.len', hq.len, h.sizes.perm.sum_eq]) hsys hpl hf
    (C128_initial hsys hctl o.totalMeas o'.totalMeas nActs () () trivial (renV_replicate h.sizes 0) fun k => ⟨rfl, rfl, fun _ _ => rfl, fun _ _ => rfl, rfl⟩) hrun
  exact ⟨s', t', r1, r2⟩

/-- Mirrors with their gains, renumbered: all in closed loop. -/
theorem C128_controls {D D' : List Persist.Dm} (hd : Ren π D D') {gains gains' : List ℚ} (hg : Ren π gains gains') (hl : gains.length = D.length) : RenDms π (actuators D) (actuators D') (controls D gains) (controls D' gains') := by
  have val : ∀ (D : List Persist.Dm) (g : List ℚ), g.length = D.length → (controls D g).map DmCtl.nValid = actuators D := by
    intro D
    induction D with
    | nil => intro g _; simp [controls, actuators]
    | cons d D ih =>
      intro g hg
      cases g with
      | nil => simp at hg
      | cons x g => simpa [controls, actuators] using ih g (by simpa using hg)
  refine ⟨⟨?_, ?_, ?_⟩, val _ _ hl, val _ _ (by rw [hg.len, hd.len, hl])⟩
  · simp [controls, hd.len, hg.len]
  · simpa [controls, hl] using hd.inj
  · intro k hk
    have hk : k < D.length := by simpa [controls, hl] using hk
    refine ⟨by simpa [controls, hl] using (hd.get k hk).1, ?_⟩
    simp only [controls, List.getElem?_zipWith]
    rw [(hd.get k hk).2, (hg.get k (by omega)).2]

end

/-! ### An example: two layers, two mirrors and two sensors, listed the other way round -/

def turnedOptics : Optics := ⟨6, [1000, 0], [1000, 0], [wholeWfs (1 / 2000), wholeWfs 0]⟩

private theorem ren_two {α : Type} (a b : α) : Ren (fun k => 1 - k) [a, b] [b, a] where
  len := rfl
  inj := by
    intro i j hi hj h
    simp at hi hj h
    omega
  get := by
    intro k hk
    have : k = 0 ∨ k = 1 := by simp at hk; omega
    rcases this with rfl | rfl <;> simp

private theorem turned : RenOptics (fun k => 1 - k) (fun k => 1 - k) (fun k => 1 - k) wholeOptics turnedOptics := ⟨rfl, ren_two _ _, ren_two _ _, ren_two _ _⟩

private theorem whole_control : ControlOf 0 3 4 wholeImat wholeCmat := by
  refine ⟨rfl, by decide, ?_⟩
  obtain ⟨S⟩ := Pinv.exists_svd (entries 3 4 wholeImat)
  refine ⟨S, penrose_unique _ _ ?_ (C125_default S)⟩
  have hM : entries 3 4 wholeImat = !![2, 0, 2, 0; 0, 2, 0, 2; 10, 0, 14, 0] := by
    ext p q
    fin_cases p <;> fin_cases q <;> simp [entries, wholeImat]
  have hP : entries 4 3 wholeCmat = !![7 / 4, 0, -1 / 4; 0, 1 / 4, 0; -5 / 4, 0, 1 / 4; 0, 1 / 4, 0] := by
    ext p q
    fin_cases p <;> fin_cases q <;> simp [entries, wholeCmat]
  rw [hM, hP]
  constructor
  · ext p q
    fin_cases p <;> fin_cases q <;> simp [Matrix.mul_apply, Fin.sum_univ_succ] <;> norm_num
  · ext p q
    fin_cases p <;> fin_cases q <;> simp [Matrix.mul_apply, Fin.sum_univ_succ] <;> norm_num
  · ext p q
    fin_cases p <;> fin_cases q <;> simp [Matrix.mul_apply, Fin.sum_univ_succ] <;> norm_num
  · ext p q
    fin_cases p <;> fin_cases q <;> simp [Matrix.mul_apply, Fin.sum_univ_succ] <;> norm_num

/-- Both run for a hundred frames, whatever the turbulence, and the commands of the second are those of the first with the blocks of the two mirrors (two actuators and one) exchanged. -/
example (turb : ℕ → ℕ → ℕ → ℕ → ℚ) : ∃ D D' M' P' s t s' t', wholeOptics.calibrate 4 wholeDms = .ok (D, wholeImat) ∧ turnedOptics.calibrate 4 wholeDms.reverse = .ok (D', M') ∧ ControlOf 0 3 4 M' P' ∧
    runLoop (wholeOptics.sys D wholeCmat 1 100 true false) (wholeOptics.plant turb) (initial (wholeOptics.sys D wholeCmat 1 100 true false) (controls D [1 / 2, 1 / 4]) 4 4 ()) (List.replicate 100 (controls D [1 / 2, 1 / 4])) = .ok (s, t) ∧
    runLoop (turnedOptics.sys D' P' 1 100 true false) (turnedOptics.plant fun i l => turb i (1 - l)) (initial (turnedOptics.sys D' P' 1 100 true false) (controls D' [1 / 4, 1 / 2]) 4 4 ()) (List.replicate 100 (controls D' [1 / 4, 1 / 2])) = .ok (s', t') ∧
    ∀ (i : ℕ) (x x' : Trace Stack), t[i]? = some x → t'[i]? = some x' → ∃ a b c, x.cmds = [a, b, c] ∧ x'.cmds = [c, a, b] := by
  obtain ⟨D, h1, h2⟩ := whole_ok
  have h3 : (wholeOptics.calibrate 4 wholeDms).map (fun p => p.1.map fun d => d.shapes.length) = .ok [2, 1] := by decide +kernel
  rw [h1] at h3
  simp only [Except.map, Except.ok.injEq] at h3
  have h3 : actuators D = [2, 1] := h3
  obtain ⟨D', M', c1, c2, c3⟩ := C128_calibrate (dms := wholeDms) (dms' := wholeDms.reverse) turned whole_sound 4 4 rfl (ren_two _ _) h1
  have h4 : Ren (fun k => 1 - k) (actuators D) (actuators D') := c2.map _
  have h5 : actuators D' = [1, 2] := by
    rw [h3] at h4
    apply List.ext_getElem?
    intro k
    by_cases hk : k < 2
    · rw [(h4.get k hk).2]
      interval_cases k <;> rfl
    · rw [List.getElem?_eq_none (by rw [h4.len]; simp; omega), List.getElem?_eq_none (by simp; omega)]
  obtain ⟨s, t, r1, r2, _⟩ := C111_whole wholeOptics whole_sound 4 wholeDms D wholeImat h1 (by simp [wholeDms])
    (by intro d hd; simp only [wholeDms, List.mem_cons, List.not_mem_nil, or_false] at hd; rcases hd with rfl | rfl <;> exact ⟨rfl, rfl⟩) h2 wholeCmat rfl (by decide) whole_undoes
    [1 / 2, 1 / 4] rfl 1 100 4 100 (by norm_num) true false (fun h => nomatch h) turb
  have hP : ControlOf 0 (actuators D).sum (sizes wholeOptics).sum wholeImat wholeCmat := by rw [h3]; exact whole_control
  obtain ⟨P', hP'⟩ := C128_control_exists h4 turned.sizes c3 0 hP
  have hctl : RenDms (fun k => 1 - k) (actuators D) (actuators D') (controls D [1 / 2, 1 / 4]) (controls D' [1 / 4, 1 / 2]) := C128_controls c2 (ren_two _ _) (by
    have := congrArg List.length h3
    simp [actuators] at this
    simp [this])
  have hf : ∀ n : ℕ, List.Forall₂ (RenDms (fun k => 1 - k) (actuators D) (actuators D')) (List.replicate n (controls D [1 / 2, 1 / 4])) (List.replicate n (controls D' [1 / 4, 1 / 2])) := by
    intro n
    induction n with
    | zero => exact .nil
    | succ n ih => exact .cons hctl ih
  obtain ⟨s', t', q1, q2⟩ := C128_whole turned whole_sound 4 4 rfl (ren_two _ _) h1 c1 0 le_rfl hP hP' 1 100 4 true false turb (fun i l => turb i (1 - l)) (fun _ _ _ => rfl) hctl (hf 100) r1
  refine ⟨D, D', M', P', s, t, s', t', h1, c1, by rw [h5] at hP'; exact hP', r1, q1, fun i x x' hx hx' => ?_⟩
  have hi := (List.getElem?_eq_some_iff.mp hx).1
  have hi' := (List.getElem?_eq_some_iff.mp hx').1
  have hr := ((List.forall₂_iff_get.mp q2).2 i hi hi').cmds
  rw [List.get_eq_getElem, List.get_eq_getElem, (List.getElem?_eq_some_iff.mp hx).2, (List.getElem?_eq_some_iff.mp hx').2, h3, h5] at hr
  obtain ⟨l, l', g⟩ := hr
  have g0 := g 0 1 rfl 0 (by norm_num)
  have g1 := g 1 2 rfl 0 (by norm_num)
  have g2 := g 1 2 rfl 1 (by norm_num)
  match e : x.cmds, e' : x'.cmds with
  | [a, b, c], [a', b', c'] =>
    rw [e, e'] at g0 g1 g2
    simp [before] at g0 g1 g2
    exact ⟨a, b, c, rfl, by rw [g0, g1, g2]⟩
  | [], _ => rw [e] at l; simp at l
  | [_], _ => rw [e] at l; simp at l
  | [_, _], _ => rw [e] at l; simp at l
  | _ :: _ :: _ :: _ :: _, _ => rw [e] at l; simp at l
  | [_, _, _], [] => rw [e'] at l'; simp at l'
  | [_, _, _], [_] => rw [e'] at l'; simp at l'
  | [_, _, _], [_, _] => rw [e'] at l'; simp at l'
  | [_, _, _], _ :: _ :: _ :: _ :: _ => rw [e'] at l'; simp at l'

end Soapy.Props
