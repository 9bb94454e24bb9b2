/-
C126: the whole loop is linear in the turbulence.
-/
import Verif.Props.Whole

namespace Soapy.Props

open Soapy.Mirror Soapy.Los Soapy.Whole Soapy.Loop Soapy.Control Soapy.Vec

/-! ### Three lists side by side -/

/-- Three lists have the same length, and entries at the same place are related. -/
inductive Each3 {α β γ : Type} (R : α → β → γ → Prop) : List α → List β → List γ → Prop
  | nil : Each3 R [] [] []
  | cons {a b c as bs cs} : R a b c → Each3 R as bs cs → Each3 R (a :: as) (b :: bs) (c :: cs)

/-- Entry by entry the third vector is the first plus `r` times the second. -/
def Mix (r : ℚ) : List ℚ → List ℚ → List ℚ → Prop := Each3 fun x y z => z = x + r * y

/-- The same for surfaces. -/
def MixS {Surf : Type} [AddCommGroup Surf] [Module ℚ Surf] (r : ℚ) : List Surf → List Surf → List Surf → Prop := Each3 fun x y z => z = x + r • y

section each3
variable {α β γ : Type} {R : α → β → γ → Prop}

private theorem e3_len {as : List α} {bs : List β} {cs : List γ} (h : Each3 R as bs cs) : bs.length = as.length ∧ cs.length = as.length := by
  induction h with
  | nil => simp
  | cons _ _ ih => simp [ih.1, ih.2]

private theorem e3_take {as : List α} {bs : List β} {cs : List γ} (h : Each3 R as bs cs) (n : ℕ) : Each3 R (as.take n) (bs.take n) (cs.take n) := by
  induction h generalizing n with
  | nil => simpa using Each3.nil
  | cons h _ ih =>
    cases n with
    | zero => exact Each3.nil
    | succ n => exact Each3.cons h (ih n)

private theorem e3_drop {as : List α} {bs : List β} {cs : List γ} (h : Each3 R as bs cs) (n : ℕ) : Each3 R (as.drop n) (bs.drop n) (cs.drop n) := by
  induction h generalizing n with
  | nil => simpa using Each3.nil
  | cons h hs ih =>
    cases n with
    | zero => exact Each3.cons h hs
    | succ n => exact ih n

private theorem e3_append {as as' : List α} {bs bs' : List β} {cs cs' : List γ} (h : Each3 R as bs cs) (h' : Each3 R as' bs' cs') : Each3 R (as ++ as') (bs ++ bs') (cs ++ cs') := by
  induction h with
  | nil => exact h'
  | cons h _ ih => exact Each3.cons h ih

private theorem e3_set {as : List α} {bs : List β} {cs : List γ} (h : Each3 R as bs cs) (n : ℕ) {a b c} (hn : R a b c) : Each3 R (as.set n a) (bs.set n b) (cs.set n c) := by
  induction h generalizing n with
  | nil => exact Each3.nil
  | cons h hs ih =>
    cases n with
    | zero => exact Each3.cons hn hs
    | succ n => exact Each3.cons h (ih n)

private theorem e3_get {as : List α} {bs : List β} {cs : List γ} (h : Each3 R as bs cs) (n : ℕ) : (as[n]? = none ∧ bs[n]? = none ∧ cs[n]? = none) ∨ ∃ a b c, as[n]? = some a ∧ bs[n]? = some b ∧ cs[n]? = some c ∧ R a b c := by
  induction h generalizing n with
  | nil => simp
  | cons h hs ih =>
    cases n with
    | zero => exact Or.inr ⟨_, _, _, rfl, rfl, rfl, h⟩
    | succ n => simpa using ih n

private theorem e3_zip {α' β' γ' α'' β'' γ'' : Type} {R' : α' → β' → γ' → Prop} {R'' : α'' → β'' → γ'' → Prop} {f : α → α' → α''} {g : β → β' → β''} {k : γ → γ' → γ''}
    (hf : ∀ {a b c a' b' c'}, R a b c → R' a' b' c' → R'' (f a a') (g b b') (k c c')) {as : List α} {bs : List β} {cs : List γ} (h : Each3 R as bs cs) :
    ∀ {as' : List α'} {bs' : List β'} {cs' : List γ'}, Each3 R' as' bs' cs' → Each3 R'' (List.zipWith f as as') (List.zipWith g bs bs') (List.zipWith k cs cs') := by
  induction h with
  | nil => intros; simpa using Each3.nil
  | cons h hs ih =>
    intro as' bs' cs' h'
    cases h' with
    | nil => exact Each3.nil
    | cons h' hs' => exact Each3.cons (hf h h') (ih hs')

private theorem e3_replicate (n : ℕ) {a b c} (h : R a b c) : Each3 R (List.replicate n a) (List.replicate n b) (List.replicate n c) := by
  induction n with
  | zero => exact Each3.nil
  | succ n ih => exact Each3.cons h ih

private theorem e3_range {β' : Type} {R : β' → β' → β' → Prop} {f g k : ℕ → β'} (n : ℕ) (h : ∀ i, R (f i) (g i) (k i)) : Each3 R ((List.range n).map f) ((List.range n).map g) ((List.range n).map k) := by
  generalize List.range n = l
  induction l with
  | nil => exact Each3.nil
  | cons x xs ih => exact Each3.cons (h x) ih

end each3

/-- What `Each3` says in terms of indices. -/
theorem each3_iff {α β γ : Type} (R : α → β → γ → Prop) (as : List α) (bs : List β) (cs : List γ) :
    Each3 R as bs cs ↔ bs.length = as.length ∧ cs.length = as.length ∧ ∀ (i : ℕ) (a : α) (b : β) (c : γ), as[i]? = some a → bs[i]? = some b → cs[i]? = some c → R a b c := by
  constructor
  · intro h
    refine ⟨(e3_len h).1, (e3_len h).2, fun i a b c ha hb hc => ?_⟩
    rcases e3_get h i with ⟨h1, _⟩ | ⟨a', b', c', h1, h2, h3, h4⟩
    · rw [h1] at ha; cases ha
    · rw [h1, Option.some.injEq] at ha
      rw [h2, Option.some.injEq] at hb
      rw [h3, Option.some.injEq] at hc
      subst ha hb hc
      exact h4
  · rintro ⟨h1, h2, h3⟩
    induction as generalizing bs cs with
    | nil =>
      rw [List.length_nil, List.length_eq_zero_iff] at h1 h2
      subst h1 h2
      exact Each3.nil
    | cons a as ih =>
      match bs, cs with
      | [], _ => simp at h1
      | _ :: _, [] => simp at h2
      | b :: bs, c :: cs =>
        exact Each3.cons (h3 0 a b c rfl rfl rfl) (ih bs cs (by simpa using h1) (by simpa using h2) fun i a b c ha hb hc => h3 (i + 1) a b c (by simpa using ha) (by simpa using hb) (by simpa using hc))

/-! ### The loop -/

section loop
variable {Surf : Type} [AddCommGroup Surf] [Module ℚ Surf]

/-- Mirrors and reconstructor are linear, and whether they fail depends only on the number of commands or measurements. -/
structure LinearSys (sys : Sys Surf) : Prop where
  surface : ∀ r k c d e x y, Mix r c d e → sys.surface k c = .ok x → sys.surface k d = .ok y → sys.surface k e = .ok (x + r • y)
  product : ∀ r m n l u v, Mix r m n l → sys.product m = .ok u → sys.product n = .ok v → ∃ w, sys.product l = .ok w ∧ Mix r u v w

/-- Three worlds of atmosphere and sensors: whenever the corrections in the third are those in the first plus `r` times those in the second, so are the measurements. -/
structure LinearPlants {σ₁ σ₂ σ₃ : Type} (r : ℚ) (W : σ₁ → σ₂ → σ₃ → Prop) (p₁ : Plant σ₁ Surf) (p₂ : Plant σ₂ Surf) (p₃ : Plant σ₃ Surf) : Prop where
  sense : ∀ s₁ s₂ s₃ i c₁ c₂ c₃ s₁' m₁ s₂' m₂, W s₁ s₂ s₃ → MixS r c₁ c₂ c₃ → p₁.sense s₁ i c₁ = .ok (s₁', m₁) → p₂.sense s₂ i c₂ = .ok (s₂', m₂) → ∃ s₃' m₃, p₃.sense s₃ i c₃ = .ok (s₃', m₃) ∧ W s₁' s₂' s₃' ∧ Mix r m₁ m₂ m₃

/-- The values a reconstructor keeps. -/
def MixR (r : ℚ) : Option (List ℚ) → Option (List ℚ) → Option (List ℚ) → Prop
  | none, none, none => True
  | some a, some b, some c => Mix r a b c
  | _, _, _ => False

/-- The third simulation is in the sum of the states of the first two. -/
structure MixState {σ₁ σ₂ σ₃ : Type} (r : ℚ) (W : σ₁ → σ₂ → σ₃ → Prop) (s₁ : Loop.State σ₁ Surf) (s₂ : Loop.State σ₂ Surf) (s₃ : Loop.State σ₃ Surf) : Prop where
  recon : MixR r s₁.recon.actuatorValues s₂.recon.actuatorValues s₃.recon.actuatorValues
  dmCommands : Mix r s₁.dmCommands s₂.dmCommands s₃.dmCommands
  buffer : Each3 (Mix r) s₁.buffer s₂.buffer s₃.buffer
  slopes : Mix r s₁.slopes s₂.slopes s₃.slopes
  closedCorr : MixS r s₁.closedCorr s₂.closedCorr s₃.closedCorr
  openCorr : MixS r s₁.openCorr s₂.openCorr s₃.openCorr
  iters : s₂.iters = s₁.iters ∧ s₃.iters = s₁.iters
  allSlopes : Each3 (Mix r) s₁.allSlopes s₂.allSlopes s₃.allSlopes
  allDmCommands : Each3 (Mix r) s₁.allDmCommands s₂.allDmCommands s₃.allDmCommands
  plant : W s₁.plant s₂.plant s₃.plant

/-- What is seen of the third simulation in a frame is the sum of what is seen of the first two. -/
structure MixTrace (r : ℚ) (t₁ t₂ t₃ : Trace Surf) : Prop where
  cmds : Mix r t₁.cmds t₂.cmds t₃.cmds
  seenByWfs : MixS r t₁.seenByWfs t₂.seenByWfs t₃.seenByWfs
  slopes : Mix r t₁.slopes t₂.slopes t₃.slopes
  seenBySci : MixS r t₁.seenBySci t₂.seenBySci t₃.seenBySci

private theorem mix_slice {r : ℚ} {x y z : List ℚ} (h : Mix r x y z) (a b : ℕ) : Mix r (slice x a b) (slice y a b) (slice z a b) := e3_drop (e3_take h b) a

private theorem mix_newValues {r : ℚ} (d : DmCtl) {a b c u v w : List ℚ} (h : Mix r a b c) (h' : Mix r u v w) : Mix r (newValues d a u) (newValues d b v) (newValues d c w) := by
  unfold newValues
  split_ifs
  · exact e3_zip (fun h1 h2 => by rw [h1, h2]; ring) h h'
  · exact e3_zip (fun h1 h2 => by rw [h1, h2]; ring) h h'

private theorem mix_applyGain {r : ℚ} : ∀ (ds : List DmCtl) (n : ℕ) {a b c u v w a' b' : List ℚ}, Mix r a b c → Mix r u v w → applyGain ds n a u = .ok a' → applyGain ds n b v = .ok b' →
    ∃ c', applyGain ds n c w = .ok c' ∧ Mix r a' b' c'
  | [], _, a, b, c, _, _, _, _, _, h, _, h1, h2 => by
    simp only [applyGain, Except.ok.injEq] at h1 h2
    subst h1 h2
    exact ⟨c, rfl, h⟩
  | d :: ds, n, a, b, c, u, v, w, a', b', h, h', h1, h2 => by
    have ha := mix_slice h n (n + d.nValid)
    have hu := mix_slice h' n (n + d.nValid)
    have hn := mix_newValues d ha hu
    simp only [applyGain] at h1 h2 ⊢
    split_ifs at h1 with l1
    split_ifs at h2 with l2
    rw [if_pos (by rw [(e3_len ha).2, (e3_len hu).2, l1])]
    unfold assign at h1 h2 ⊢
    split_ifs at h1 with k1
    split_ifs at h2 with k2
    rw [if_pos (by rw [(e3_len ha).2, (e3_len hn).2, k1])]
    simp only at h1 h2 ⊢
    refine mix_applyGain ds _ ?_ h' h1 h2
    rw [(e3_len hn).1, (e3_len hn).2]
    exact e3_append (e3_append (e3_take h n) hn) (e3_drop h _)

private theorem mix_popLoop {r : ℚ} : ∀ (k : ℕ) {a b c a' b' : List (List ℚ)} {x y z x' y' : Option (List ℚ)}, Each3 (Mix r) a b c → MixR r x y z → Delay.popLoop k a x = .ok (a', x') → Delay.popLoop k b y = .ok (b', y') →
    ∃ c' z', Delay.popLoop k c z = .ok (c', z') ∧ Each3 (Mix r) a' b' c' ∧ MixR r x' y' z'
  | 0, a, b, c, a', b', x, y, z, x', y', h, hx, h1, h2 => by
    simp only [Delay.popLoop, Except.ok.injEq, Prod.mk.injEq] at h1 h2
    obtain ⟨rfl, rfl⟩ := h1
    obtain ⟨rfl, rfl⟩ := h2
    exact ⟨c, z, rfl, h, hx⟩
  | k + 1, a, b, c, a', b', x, y, z, x', y', h, hx, h1, h2 => by
    cases h with
    | nil => simp [Delay.popLoop] at h1
    | cons h hs => exact mix_popLoop k hs (x := some _) (y := some _) (z := some _) h h1 h2

private theorem mix_zeroLike {r : ℚ} {x y z : List ℚ} (h : Mix r x y z) : Mix r (zeroLike x) (zeroLike y) (zeroLike z) := by
  unfold zeroLike
  induction h with
  | nil => exact Each3.nil
  | cons _ _ ih => exact Each3.cons (by simp) ih

private theorem mix_delay {r : ℚ} {a b c a' b' : List (List ℚ)} {x y z x' y' : List ℚ} (h : Each3 (Mix r) a b c) (hx : Mix r x y z) (n : ℤ) (h1 : Delay.delay zeroLike a x n = .ok (a', x')) (h2 : Delay.delay zeroLike b y n = .ok (b', y')) :
    ∃ c' z', Delay.delay zeroLike c z n = .ok (c', z') ∧ Each3 (Mix r) a' b' c' ∧ Mix r x' y' z' := by
  have h' : Each3 (Mix r) (a ++ [x]) (b ++ [y]) (c ++ [z]) := e3_append h (Each3.cons hx Each3.nil)
  unfold Delay.delay at h1 h2 ⊢
  simp only [(e3_len h').1, (e3_len h').2] at h1 h2 ⊢
  split_ifs at h1 h2 ⊢ with hl
  · simp only [Except.ok.injEq, Prod.mk.injEq] at h1 h2
    obtain ⟨rfl, rfl⟩ := h1
    obtain ⟨rfl, rfl⟩ := h2
    exact ⟨_, _, rfl, h', mix_zeroLike hx⟩
  · cases e1 : Delay.popLoop (((a ++ [x]).length : ℤ) - n).toNat (a ++ [x]) none with
    | error e => rw [e1] at h1; simp at h1
    | ok p =>
      cases e2 : Delay.popLoop (((a ++ [x]).length : ℤ) - n).toNat (b ++ [y]) none with
      | error e => rw [e2] at h2; simp at h2
      | ok q =>
        obtain ⟨c', z', e3, e4, e5⟩ := mix_popLoop _ h' (x := none) (y := none) (z := none) trivial e1 e2
        rw [e1] at h1
        rw [e2] at h2
        rw [e3]
        obtain ⟨p1, p2⟩ := p
        obtain ⟨q1, q2⟩ := q
        cases p2 with
        | none => simp at h1
        | some p2 =>
          cases q2 with
          | none => simp at h2
          | some q2 =>
            cases z' with
            | none => exact e5.elim
            | some z' =>
              simp only [Except.ok.injEq, Prod.mk.injEq] at h1 h2
              obtain ⟨rfl, rfl⟩ := h1
              obtain ⟨rfl, rfl⟩ := h2
              exact ⟨_, _, rfl, e4, e5⟩

private theorem mix_reconstruct {r : ℚ} {sys : Sys Surf} (hs : LinearSys sys) (dms : List DmCtl) (n : ℕ) {a b c a' b' : Recon} {m l k x y : List ℚ} (h : MixR r a.actuatorValues b.actuatorValues c.actuatorValues) (hm : Mix r m l k)
    (h1 : reconstruct dms n sys.product a m = .ok (a', x)) (h2 : reconstruct dms n sys.product b l = .ok (b', y)) :
    ∃ c' z, reconstruct dms n sys.product c k = .ok (c', z) ∧ MixR r a'.actuatorValues b'.actuatorValues c'.actuatorValues ∧ Mix r x y z := by
  have hz : Mix r (zeros n) (zeros n) (zeros n) := e3_replicate n (by simp)
  unfold reconstruct at h1 h2 ⊢
  cases e1 : sys.product m with
  | error e => rw [e1] at h1; simp at h1
  | ok u =>
    cases e2 : sys.product l with
    | error e => rw [e2] at h2; simp at h2
    | ok v =>
      obtain ⟨w, e3, e4⟩ := hs.product r m l k u v hm e1 e2
      rw [e1] at h1
      rw [e2] at h2
      rw [e3]
      simp only at h1 h2 ⊢
      obtain ⟨a⟩ := a
      obtain ⟨b⟩ := b
      obtain ⟨c⟩ := c
      have key : ∀ p q s : List ℚ, Mix r p q s → (match applyGain dms 0 p u with | .error e => .error e | .ok act' => .ok ((⟨some act'⟩, act') : Recon × List ℚ)) = Except.ok (a', x) →
          (match applyGain dms 0 q v with | .error e => .error e | .ok act' => .ok ((⟨some act'⟩, act') : Recon × List ℚ)) = Except.ok (b', y) →
          ∃ c' z, (match applyGain dms 0 s w with | .error e => (.error e : Except PyErr _) | .ok act' => .ok ((⟨some act'⟩, act') : Recon × List ℚ)) = .ok (c', z) ∧ MixR r a'.actuatorValues b'.actuatorValues c'.actuatorValues ∧ Mix r x y z := by
        intro p q s hp g1 g2
        cases f1 : applyGain dms 0 p u with
        | error e => rw [f1] at g1; simp at g1
        | ok a2 =>
          cases f2 : applyGain dms 0 q v with
          | error e => rw [f2] at g2; simp at g2
          | ok b2 =>
            obtain ⟨c2, f3, f4⟩ := mix_applyGain dms 0 hp e4 f1 f2
            rw [f1] at g1
            rw [f2] at g2
            rw [f3]
            simp only [Except.ok.injEq, Prod.mk.injEq] at g1 g2
            obtain ⟨rfl, rfl⟩ := g1
            obtain ⟨rfl, rfl⟩ := g2
            exact ⟨_, _, rfl, f4, f4⟩
      cases a <;> cases b <;> cases c <;> first | exact h.elim | skip
      · exact key _ _ _ hz h1 h2
      · exact key _ _ _ h h1 h2

private theorem mix_runDM {r : ℚ} {sys : Sys Surf} (hs : LinearSys sys) (cl : Bool) {x y z : List ℚ} (hx : Mix r x y z) : ∀ (k : ℕ) (ds : List DmCtl) (as : List ℕ) {a b c a' b' : List Surf}, MixS r a b c →
    runDM sys.surface cl x k ds as a = .ok a' → runDM sys.surface cl y k ds as b = .ok b' → ∃ c', runDM sys.surface cl z k ds as c = .ok c' ∧ MixS r a' b' c'
  | _, [], _, a, b, c, a', b', h, h1, h2 => by
    simp only [runDM, Except.ok.injEq] at h1 h2
    subst h1 h2
    exact ⟨c, rfl, h⟩
  | _, _ :: _, [], _, _, _, _, _, _, h1, _ => by simp [runDM] at h1
  | k, d :: ds, n :: as, a, b, c, a', b', h, h1, h2 => by
    simp only [runDM] at h1 h2 ⊢
    split_ifs at h1 h2 ⊢ with hc
    · cases e1 : sys.surface k (slice x n (n + d.nValid)) with
      | error e => rw [e1] at h1; simp at h1
      | ok p =>
        cases e2 : sys.surface k (slice y n (n + d.nValid)) with
        | error e => rw [e2] at h2; simp at h2
        | ok q =>
          rw [e1] at h1
          rw [e2] at h2
          rw [hs.surface r k _ _ _ _ _ (mix_slice hx n (n + d.nValid)) e1 e2]
          exact mix_runDM hs cl hx _ ds as (e3_set h k rfl) h1 h2
    · exact mix_runDM hs cl hx _ ds as h h1 h2

private theorem mix_storeRow {r : ℚ} (save : Bool) {a b c a' b' : List (List ℚ)} (h : Each3 (Mix r) a b c) (i : ℕ) {x y z : List ℚ} (hx : Mix r x y z) (h1 : storeRow save a i x = .ok a') (h2 : storeRow save b i y = .ok b') :
    ∃ c', storeRow save c i z = .ok c' ∧ Each3 (Mix r) a' b' c' := by
  unfold storeRow at h1 h2 ⊢
  split_ifs at h1 h2 ⊢ with hsv
  · rcases e3_get h i with ⟨g1, _, _⟩ | ⟨p, q, s, g1, g2, g3, g4⟩
    · rw [g1] at h1; simp at h1
    · rw [g1] at h1
      rw [g2] at h2
      rw [g3]
      simp only at h1 h2 ⊢
      split_ifs at h1 with l1
      split_ifs at h2 with l2
      rw [if_pos (by rw [(e3_len g4).2, (e3_len hx).2, l1])]
      simp only [Except.ok.injEq] at h1 h2
      subst h1 h2
      exact ⟨_, rfl, e3_set h i hx⟩
  · simp only [Except.ok.injEq] at h1 h2
    subst h1 h2
    exact ⟨c, rfl, h⟩

private theorem mix_control {r : ℚ} {sys : Sys Surf} (hs : LinearSys sys) (dms : List DmCtl) {a b c a' b' : Recon} {x y z x' y' m l k : List ℚ} {p q s p' q' : List (List ℚ)} (h : MixR r a.actuatorValues b.actuatorValues c.actuatorValues) (hx : Mix r x y z)
    (hp : Each3 (Mix r) p q s) (hm : Mix r m l k) (h1 : Loop.control sys dms a x p m = .ok (a', p', x')) (h2 : Loop.control sys dms b y q l = .ok (b', q', y')) :
    ∃ c' s' z', Loop.control sys dms c z s k = .ok (c', s', z') ∧ MixR r a'.actuatorValues b'.actuatorValues c'.actuatorValues ∧ Each3 (Mix r) p' q' s' ∧ Mix r x' y' z' := by
  unfold Loop.control at h1 h2 ⊢
  have key : ∀ (a1 b1 c1 : Recon) (x1 y1 z1 : List ℚ), MixR r a1.actuatorValues b1.actuatorValues c1.actuatorValues → Mix r x1 y1 z1 →
      (match Delay.delay zeroLike p x1 sys.loopDelay with | .error e => .error e | .ok (buffer', out) => .ok (a1, buffer', out)) = Except.ok (a', p', x') →
      (match Delay.delay zeroLike q y1 sys.loopDelay with | .error e => .error e | .ok (buffer', out) => .ok (b1, buffer', out)) = Except.ok (b', q', y') →
      ∃ c' s' z', (match Delay.delay zeroLike s z1 sys.loopDelay with | .error e => (.error e : Except PyErr _) | .ok (buffer', out) => .ok (c1, buffer', out)) = .ok (c', s', z') ∧
        MixR r a'.actuatorValues b'.actuatorValues c'.actuatorValues ∧ Each3 (Mix r) p' q' s' ∧ Mix r x' y' z' := by
    intro a1 b1 c1 x1 y1 z1 ha hx1 g1 g2
    cases f1 : Delay.delay zeroLike p x1 sys.loopDelay with
    | error e => rw [f1] at g1; simp at g1
    | ok u =>
      cases f2 : Delay.delay zeroLike q y1 sys.loopDelay with
      | error e => rw [f2] at g2; simp at g2
      | ok v =>
        obtain ⟨c', z', f3, f4, f5⟩ := mix_delay hp hx1 sys.loopDelay f1 f2
        rw [f1] at g1
        rw [f2] at g2
        rw [f3]
        simp only [Except.ok.injEq, Prod.mk.injEq] at g1 g2
        obtain ⟨rfl, rfl, rfl⟩ := g1
        obtain ⟨rfl, rfl, rfl⟩ := g2
        exact ⟨_, _, _, rfl, ha, f4, f5⟩
  by_cases h0 : dms.length = 0
  · simp only [h0, if_true] at h1 h2 ⊢
    exact key _ _ _ _ _ _ h hx h1 h2
  · simp only [h0, if_false] at h1 h2 ⊢
    cases e1 : reconstruct dms (dms.map DmCtl.nValid).sum sys.product a m with
    | error e => rw [e1] at h1; simp at h1
    | ok u =>
      cases e2 : reconstruct dms (dms.map DmCtl.nValid).sum sys.product b l with
      | error e => rw [e2] at h2; simp at h2
      | ok v =>
        obtain ⟨c', z', e3, e4, e5⟩ := mix_reconstruct hs dms _ h hm e1 e2
        rw [e1] at h1
        rw [e2] at h2
        rw [e3]
        simp only at h1 h2 ⊢
        split_ifs at h1 with l1
        split_ifs at h2 with l2
        rw [if_pos (by rw [(e3_len e5).2, (e3_len hx).2, l1])]
        exact key _ _ _ _ _ _ e4 e5 h1 h2

private theorem mix_frame {σ₁ σ₂ σ₃ : Type} {r : ℚ} {W : σ₁ → σ₂ → σ₃ → Prop} {sys : Sys Surf} {p₁ : Plant σ₁ Surf} {p₂ : Plant σ₂ Surf} {p₃ : Plant σ₃ Surf} (hs : LinearSys sys) (hp : LinearPlants r W p₁ p₂ p₃) (dms : List DmCtl)
    {s₁ s₁' : Loop.State σ₁ Surf} {s₂ s₂' : Loop.State σ₂ Surf} {s₃ : Loop.State σ₃ Surf} {t₁ t₂ : Trace Surf} (h : MixState r W s₁ s₂ s₃) (h1 : loopFrame sys p₁ dms s₁ = .ok (s₁', t₁)) (h2 : loopFrame sys p₂ dms s₂ = .ok (s₂', t₂)) :
    ∃ s₃' t₃, loopFrame sys p₃ dms s₃ = .ok (s₃', t₃) ∧ MixState r W s₁' s₂' s₃' ∧ MixTrace r t₁ t₂ t₃ := by
  unfold loopFrame at h1 h2 ⊢
  rw [h.iters.1] at h2
  rw [h.iters.2]
  cases e1 : Loop.control sys dms s₁.recon s₁.dmCommands s₁.buffer s₁.slopes with
  | error e => rw [e1] at h1; simp at h1
  | ok u =>
  cases e2 : Loop.control sys dms s₂.recon s₂.dmCommands s₂.buffer s₂.slopes with
  | error e => rw [e2] at h2; simp at h2
  | ok v =>
  obtain ⟨rec1, buf1, cmd1⟩ := u
  obtain ⟨rec2, buf2, cmd2⟩ := v
  obtain ⟨rec3, buf3, cmd3, e3, a1, a2, a3⟩ := mix_control hs dms h.recon h.dmCommands h.buffer h.slopes e1 e2
  rw [e1] at h1
  rw [e2] at h2
  rw [e3]
  simp only at h1 h2 ⊢
  cases f1 : runDM sys.surface true cmd1 0 dms (firstActs dms 0) s₁.closedCorr with
  | error e => rw [f1] at h1; simp at h1
  | ok cc1 =>
  cases f2 : runDM sys.surface true cmd2 0 dms (firstActs dms 0) s₂.closedCorr with
  | error e => rw [f2] at h2; simp at h2
  | ok cc2 =>
  obtain ⟨cc3, f3, b1⟩ := mix_runDM hs true a3 0 dms _ h.closedCorr f1 f2
  rw [f1] at h1
  rw [f2] at h2
  rw [f3]
  simp only at h1 h2 ⊢
  cases g1 : p₁.sense s₁.plant s₁.iters cc1 with
  | error e => rw [g1] at h1; simp at h1
  | ok u =>
  cases g2 : p₂.sense s₂.plant s₁.iters cc2 with
  | error e => rw [g2] at h2; simp at h2
  | ok v =>
  obtain ⟨w1, m1⟩ := u
  obtain ⟨w2, m2⟩ := v
  obtain ⟨w3, m3, g3, c1, c2⟩ := hp.sense _ _ _ _ _ _ _ _ _ _ _ h.plant b1 g1 g2
  rw [g1] at h1
  rw [g2] at h2
  rw [g3]
  simp only at h1 h2 ⊢
  cases i1 : runDM sys.surface false cmd1 0 dms (firstActs dms 0) s₁.openCorr with
  | error e => rw [i1] at h1; simp at h1
  | ok oc1 =>
  cases i2 : runDM sys.surface false cmd2 0 dms (firstActs dms 0) s₂.openCorr with
  | error e => rw [i2] at h2; simp at h2
  | ok oc2 =>
  obtain ⟨oc3, i3, d1⟩ := mix_runDM hs false a3 0 dms _ h.openCorr i1 i2
  rw [i1] at h1
  rw [i2] at h2
  rw [i3]
  simp only at h1 h2 ⊢
  split_ifs at h1 h2 ⊢
  cases j1 : storeRow sys.saveSlopes s₁.allSlopes (s₁.iters % sys.nIters) m1 with
  | error e => rw [j1] at h1; simp at h1
  | ok as1 =>
  cases j2 : storeRow sys.saveSlopes s₂.allSlopes (s₁.iters % sys.nIters) m2 with
  | error e => rw [j2] at h2; simp at h2
  | ok as2 =>
  obtain ⟨as3, j3, k1⟩ := mix_storeRow _ h.allSlopes _ c2 j1 j2
  rw [j1] at h1
  rw [j2] at h2
  rw [j3]
  simp only at h1 h2 ⊢
  cases l1 : storeRow sys.saveDmCommands s₁.allDmCommands (s₁.iters % sys.nIters) cmd1 with
  | error e => rw [l1] at h1; simp at h1
  | ok ac1 =>
  cases l2 : storeRow sys.saveDmCommands s₂.allDmCommands (s₁.iters % sys.nIters) cmd2 with
  | error e => rw [l2] at h2; simp at h2
  | ok ac2 =>
  obtain ⟨ac3, l3, n1⟩ := mix_storeRow _ h.allDmCommands _ a3 l1 l2
  rw [l1] at h1
  rw [l2] at h2
  rw [l3]
  simp only [Except.ok.injEq, Prod.mk.injEq] at h1 h2 ⊢
  obtain ⟨rfl, rfl⟩ := h1
  obtain ⟨rfl, rfl⟩ := h2
  refine ⟨_, _, ⟨rfl, rfl⟩, ⟨a1, a3, a2, c2, b1, d1, ⟨rfl, rfl⟩, k1, n1, c1⟩, ⟨a3, b1, c2, ?_⟩⟩
  exact e3_zip (fun h1 h2 => by rw [h1, h2, smul_add]; abel) d1 b1

/-- **C126 (loop).**  If mirrors, reconstructor and sensors are linear so is the whole loop, with all its memory (integrator, delay line, mirrors that keep their surface while not in use, saved histories): in whatever modes and with whatever gains it runs, frame by frame. -/
theorem C126_loop {σ₁ σ₂ σ₃ : Type} {r : ℚ} {W : σ₁ → σ₂ → σ₃ → Prop} {sys : Sys Surf} {p₁ : Plant σ₁ Surf} {p₂ : Plant σ₂ Surf} {p₃ : Plant σ₃ Surf} (hs : LinearSys sys) (hp : LinearPlants r W p₁ p₂ p₃) : ∀ (frames : List (List DmCtl))
    {s₁ s₁' : Loop.State σ₁ Surf} {s₂ s₂' : Loop.State σ₂ Surf} {s₃ : Loop.State σ₃ Surf} {t₁ t₂ : List (Trace Surf)}, MixState r W s₁ s₂ s₃ → runLoop sys p₁ s₁ frames = .ok (s₁', t₁) → runLoop sys p₂ s₂ frames = .ok (s₂', t₂) →
    ∃ s₃' t₃, runLoop sys p₃ s₃ frames = .ok (s₃', t₃) ∧ MixState r W s₁' s₂' s₃' ∧ Each3 (MixTrace r) t₁ t₂ t₃
  | [], s₁, s₁', s₂, s₂', s₃, t₁, t₂, h, h1, h2 => by
    simp only [runLoop, Except.ok.injEq, Prod.mk.injEq] at h1 h2
    obtain ⟨rfl, rfl⟩ := h1
    obtain ⟨rfl, rfl⟩ := h2
    exact ⟨s₃, [], rfl, h, Each3.nil⟩
  | dms :: rest, s₁, s₁', s₂, s₂', s₃, t₁, t₂, h, h1, h2 => by
    simp only [runLoop] at h1 h2 ⊢
    cases e1 : loopFrame sys p₁ dms s₁ with
    | error e => rw [e1] at h1; simp at h1
    | ok u =>
    cases e2 : loopFrame sys p₂ dms s₂ with
    | error e => rw [e2] at h2; simp at h2
    | ok v =>
    obtain ⟨u, a⟩ := u
    obtain ⟨v, b⟩ := v
    obtain ⟨w, c, e3, e4, e5⟩ := mix_frame hs hp dms h e1 e2
    rw [e1] at h1
    rw [e2] at h2
    rw [e3]
    simp only at h1 h2 ⊢
    cases f1 : runLoop sys p₁ u rest with
    | error e => rw [f1] at h1; simp at h1
    | ok u' =>
    cases f2 : runLoop sys p₂ v rest with
    | error e => rw [f2] at h2; simp at h2
    | ok v' =>
    obtain ⟨u', ta⟩ := u'
    obtain ⟨v', tb⟩ := v'
    obtain ⟨w', tc, f3, f4, f5⟩ := C126_loop hs hp rest e4 f1 f2
    rw [f1] at h1
    rw [f2] at h2
    rw [f3]
    simp only [Except.ok.injEq, Prod.mk.injEq] at h1 h2 ⊢
    obtain ⟨rfl, rfl⟩ := h1
    obtain ⟨rfl, rfl⟩ := h2
    exact ⟨_, _, ⟨rfl, rfl⟩, f4, Each3.cons e5 f5⟩

end loop

/-! ### Mirrors, reconstructor and sensors of a simulation -/

private theorem mix_stretch {r : ℚ} {c d e : List ℚ} (h : Mix r c d e) (n : ℕ) : Mix r (stretch c n) (stretch d n) (stretch e n) := by
  cases h with
  | nil => exact Each3.nil
  | cons h hs =>
    cases hs with
    | nil => exact e3_replicate n h
    | cons h' hs => exact Each3.cons h (Each3.cons h' hs)

private theorem mix_makeDMFrame {r : ℚ} (n : ℕ) (shapes : List Arr2) {c d e : List ℚ} (h : Mix r c d e) {a b : Arr2} (h1 : makeDMFrame n shapes c = .ok a) (h2 : makeDMFrame n shapes d = .ok b) :
    makeDMFrame n shapes e = .ok ⟨n, n, fun i j => a.px i j + r * b.px i j⟩ ∧ a.rows = n ∧ a.cols = n ∧ b.rows = n ∧ b.cols = n := by
  unfold makeDMFrame at h1 h2 ⊢
  have hst := mix_stretch h shapes.length
  rw [(e3_len h).1] at h2
  rw [(e3_len h).2]
  simp only [(e3_len hst).1, (e3_len hst).2] at h1 h2 ⊢
  split_ifs at h1 h2 ⊢
  simp only [Except.ok.injEq] at h1 h2
  subst h1 h2
  refine ⟨?_, rfl, rfl, rfl, rfl⟩
  simp only [Except.ok.injEq, Arr2.mk.injEq, true_and]
  funext i j
  generalize stretch shapes c.length = ss
  revert hst
  generalize stretch c shapes.length = cs
  generalize stretch d shapes.length = ds
  generalize stretch e shapes.length = es
  intro hst
  induction hst generalizing ss with
  | nil => simp
  | cons h _ ih =>
    cases ss with
    | nil => simp
    | cons s ss =>
      simp only [List.zipWith_cons_cons, List.sum_cons, ih, h]
      ring

set_option linter.overlappingInstances false in
private theorem ite_mix (c : Prop) [i1 : Decidable c] [i2 : Decidable c] [i3 : Decidable c] (r x y : ℚ) : (@ite ℚ c i1 (x + r * y) 0) = @ite ℚ c i2 x 0 + r * @ite ℚ c i3 y 0 := by
  by_cases h : c <;> simp [h]

private theorem mix_dmFrame {r : ℚ} (scrn n : ℕ) (shapes : List Arr2) {c d e : List ℚ} (h : Mix r c d e) {a b : Arr2} (h1 : dmFrame scrn n 0 shapes (zero2 scrn) c = .ok a) (h2 : dmFrame scrn n 0 shapes (zero2 scrn) d = .ok b) :
    ∃ x, dmFrame scrn n 0 shapes (zero2 scrn) e = .ok x ∧ ∀ i j, x.px i j = a.px i j + r * b.px i j := by
  unfold dmFrame at h1 h2 ⊢
  cases e1 : makeDMFrame n shapes c with
  | error e => rw [e1] at h1; simp at h1
  | ok u =>
  cases e2 : makeDMFrame n shapes d with
  | error e => rw [e2] at h2; simp at h2
  | ok v =>
  obtain ⟨e3, r1, c1, r2, c2⟩ := mix_makeDMFrame n shapes h e1 e2
  rw [e1] at h1
  rw [e2] at h2
  rw [e3]
  have hm : (⟨n, n, fun i j => u.px i j + r * v.px i j⟩ : Arr2).mean = u.mean + r * v.mean := by
    unfold Arr2.mean Arr2.total
    simp only [r1, c1, r2, c2, Finset.sum_add_distrib, ← Finset.mul_sum]
    ring
  have hd : ∀ i j, u.px i j + r * v.px i j - (u.mean + r * v.mean) = (u.px i j - u.mean) + r * (v.px i j - v.mean) := fun i j => by ring
  simp only [hm, hd, r1, c1, r2, c2, ne_eq, not_true_eq_false, if_false] at h1 h2 ⊢
  split_ifs at h1 h2 ⊢
  · simp only [Except.ok.injEq] at h1 h2
    subst h1 h2
    exact ⟨_, rfl, fun _ _ => rfl⟩
  · simp only [Except.ok.injEq] at h1 h2
    subst h1 h2
    exact ⟨_, rfl, fun _ _ => rfl⟩
  · simp only [Except.ok.injEq] at h1 h2
    subst h1 h2
    exact ⟨_, rfl, fun _ _ => ite_mix _ r _ _⟩

private theorem mix_tdot {r : ℚ} (n : ℕ) (cmat : List (List ℚ)) {m l k u v : List ℚ} (h : Mix r m l k) (h1 : tdot n cmat m = .ok u) (h2 : tdot n cmat l = .ok v) : ∃ w, tdot n cmat k = .ok w ∧ Mix r u v w := by
  unfold tdot at h1 h2 ⊢
  rw [(e3_len h).1] at h2
  rw [(e3_len h).2]
  split_ifs at h1 h2 ⊢
  simp only [Except.ok.injEq] at h1 h2
  subst h1 h2
  refine ⟨_, rfl, ?_⟩
  have hz : Mix r (zeros n) (zeros n) (zeros n) := e3_replicate n (by simp)
  revert hz
  generalize zeros n = x
  suffices ∀ x y z, Mix r x y z → Mix r ((List.zipWith (fun row x => row.map (x * ·)) cmat m).foldl (List.zipWith (· + ·)) x) ((List.zipWith (fun row x => row.map (x * ·)) cmat l).foldl (List.zipWith (· + ·)) y)
      ((List.zipWith (fun row x => row.map (x * ·)) cmat k).foldl (List.zipWith (· + ·)) z) from fun hz => this x x x hz
  induction h generalizing cmat with
  | nil => intro x y z hz; simpa using hz
  | cons h hs ih =>
    intro x y z hz
    cases cmat with
    | nil => simpa using hz
    | cons row rows =>
      simp only [List.zipWith_cons_cons, List.foldl_cons]
      apply ih
      · simp_all
      · refine e3_zip (fun h1 h2 => by rw [h1, h2]; ring) hz (R' := fun x y z => z = x + r * y) ?_
        clear * - h
        induction row with
        | nil => exact Each3.nil
        | cons q row ih' => exact Each3.cons (by rw [h]; ring) ih'

private theorem mix_sum {r : ℚ} {Surf : Type} [AddCommGroup Surf] [Module ℚ Surf] {a b c : List Surf} (h : MixS r a b c) : c.sum = a.sum + r • b.sum := by
  induction h with
  | nil => simp
  | cons h _ ih =>
    simp only [List.sum_cons, ih, h, smul_add]
    abel

/-- Mirrors and reconstructor of every simulation are linear. -/
theorem C126_sys (o : Optics) (dms : List Persist.Dm) (cmat : List (List ℚ)) (loopDelay : ℤ) (nIters : ℕ) (saveSlopes saveDmCommands : Bool) : LinearSys (o.sys dms cmat loopDelay nIters saveSlopes saveDmCommands) where
  surface := by
    intro r k c d e x y h h1 h2
    simp only [Optics.sys] at h1 h2 ⊢
    cases hd : dms[k]? with
    | none => rw [hd] at h1; simp at h1
    | some m =>
      rw [hd] at h1 h2
      simp only at h1 h2 ⊢
      cases e1 : dmFrame o.scrn m.nElem 0 m.shapes (zero2 o.scrn) c with
      | error e => rw [e1] at h1; simp at h1
      | ok a =>
      cases e2 : dmFrame o.scrn m.nElem 0 m.shapes (zero2 o.scrn) d with
      | error e => rw [e2] at h2; simp at h2
      | ok b =>
      obtain ⟨z, e3, e4⟩ := mix_dmFrame o.scrn m.nElem m.shapes h e1 e2
      rw [e1] at h1
      rw [e2] at h2
      rw [e3]
      simp only [Except.ok.injEq] at h1 h2 ⊢
      subst h1 h2
      refine Prod.ext ?_ ?_
      · simp [slot]
      · funext q i j
        simp only [slot, Prod.snd_add, Prod.smul_snd, Pi.add_apply, Pi.smul_apply, smul_eq_mul, e4]
        exact ite_mix _ r _ _
  product := fun r m n l u v h h1 h2 => mix_tdot _ cmat h h1 h2

/-- One turbulence plus `r` times another one. -/
def addTurb (r : ℚ) (t₁ t₂ : ℕ → ℕ → ℕ → ℕ → ℚ) : ℕ → ℕ → ℕ → ℕ → ℚ := fun i l a b => t₁ i l a b + r * t₂ i l a b

/-- Sensors of every simulation (with linear measurements) are linear. -/
theorem C126_plants (o : Optics) (ho : Optics.Sound o) (r : ℚ) (t₁ t₂ : ℕ → ℕ → ℕ → ℕ → ℚ) : LinearPlants r (fun _ _ _ => True) (o.plant t₁) (o.plant t₂) (o.plant (addTurb r t₁ t₂)) where
  sense := by
    intro s₁ s₂ s₃ i c₁ c₂ c₃ s₁' m₁ s₂' m₂ _ hc h1 h2
    obtain ⟨L, hL⟩ := C111_sense_linear o ho
    rw [hL] at h1 h2
    simp only [Except.ok.injEq, Prod.mk.injEq] at h1 h2
    obtain ⟨_, rfl⟩ := h1
    obtain ⟨_, rfl⟩ := h2
    refine ⟨(), _, hL _ _ _, trivial, ?_⟩
    refine e3_range _ fun q => ?_
    have e : ((addTurb r t₁ t₂ i, 0) : Stack) - c₃.sum = ((t₁ i, 0) - c₁.sum) + r • ((t₂ i, 0) - c₂.sum) := by
      rw [mix_sum hc]
      have : ((addTurb r t₁ t₂ i, 0) : Stack) = (t₁ i, 0) + r • ((t₂ i, 0) : Stack) := by
        refine Prod.ext ?_ ?_
        · funext l a b
          simp [addTurb]
        · simp
      rw [this, smul_sub]
      abel
    rw [e, map_add, map_smul]
    simp

private theorem mix_initial (r : ℚ) (sys : Sys Stack) (dms : List DmCtl) (nMeas nActs : ℕ) : MixState r (fun _ _ _ => True) (initial sys dms nMeas nActs ()) (initial sys dms nMeas nActs ()) (initial sys dms nMeas nActs ()) where
  recon := trivial
  dmCommands := e3_replicate _ (by simp)
  buffer := Each3.nil
  slopes := e3_replicate _ (by simp)
  closedCorr := e3_replicate _ (by simp)
  openCorr := e3_replicate _ (by simp)
  iters := ⟨rfl, rfl⟩
  allSlopes := e3_replicate _ (e3_replicate _ (by simp))
  allDmCommands := e3_replicate _ (e3_replicate _ (by simp))
  plant := trivial

/-- **C126 (whole).**  A simulation with sensors whose measurements are linear and without noise answers to one turbulence plus `r` times another with the sum of its answers: commands, measurements, corrections as sensors and cameras see them, and what is saved,
in every frame, for every control matrix, delay, and whatever modes and gains are in force. -/
theorem C126_whole (o : Optics) (ho : Optics.Sound o) (dms : List Persist.Dm) (cmat : List (List ℚ)) (loopDelay : ℤ) (nIters : ℕ) (saveSlopes saveDmCommands : Bool) (ctl : List DmCtl) (nMeas nActs : ℕ) (frames : List (List DmCtl)) (r : ℚ)
    (t₁ t₂ : ℕ → ℕ → ℕ → ℕ → ℚ) (s₁ s₂ : Loop.State Unit Stack) (x₁ x₂ : List (Trace Stack)) (sys : Sys Stack) (hsys : sys = o.sys dms cmat loopDelay nIters saveSlopes saveDmCommands)
    (h1 : runLoop sys (o.plant t₁) (initial sys ctl nMeas nActs ()) frames = .ok (s₁, x₁)) (h2 : runLoop sys (o.plant t₂) (initial sys ctl nMeas nActs ()) frames = .ok (s₂, x₂)) :
    ∃ s₃ x₃, runLoop sys (o.plant (addTurb r t₁ t₂)) (initial sys ctl nMeas nActs ()) frames = .ok (s₃, x₃) ∧ MixState r (fun _ _ _ => True) s₁ s₂ s₃ ∧ Each3 (MixTrace r) x₁ x₂ x₃ := by
  subst hsys
  exact C126_loop (C126_sys o dms cmat loopDelay nIters saveSlopes saveDmCommands) (C126_plants o ho r t₁ t₂) frames (mix_initial r _ ctl nMeas nActs) h1 h2

/-! ### What follows -/

/-- Command number `p` of frame `i`. -/
def cmdAt (x : List (Trace Stack)) (i p : ℕ) : ℚ := ((x[i]?.map Trace.cmds).getD []).getD p 0

/-- Measurement number `q` of frame `i`. -/
def measureAt (x : List (Trace Stack)) (i q : ℕ) : ℚ := ((x[i]?.map Trace.slopes).getD []).getD q 0

/-- The correction of mirror `k` in frame `i` as cameras see it. -/
def corrAt (x : List (Trace Stack)) (i k : ℕ) : Stack := ((x[i]?.map Trace.seenBySci).getD []).getD k 0

private theorem getD_mix {r : ℚ} {a b c : List ℚ} (h : Mix r a b c) (p : ℕ) : c.getD p 0 = a.getD p 0 + r * b.getD p 0 := by
  simp only [List.getD_eq_getElem?_getD]
  rcases e3_get h p with ⟨h1, h2, h3⟩ | ⟨x, y, z, h1, h2, h3, h4⟩
  · simp [h1, h2, h3]
  · simp [h1, h2, h3, h4]

private theorem getD_mixS {r : ℚ} {a b c : List Stack} (h : MixS r a b c) (p : ℕ) : c.getD p 0 = a.getD p 0 + r • b.getD p 0 := by
  simp only [List.getD_eq_getElem?_getD]
  rcases e3_get h p with ⟨h1, h2, h3⟩ | ⟨x, y, z, h1, h2, h3, h4⟩
  · simp [h1, h2, h3]
  · simp [h1, h2, h3, h4]

private theorem at_mix {r : ℚ} {x y z : List (Trace Stack)} (h : Each3 (MixTrace r) x y z) (i p : ℕ) :
    cmdAt z i p = cmdAt x i p + r * cmdAt y i p ∧ measureAt z i p = measureAt x i p + r * measureAt y i p ∧ corrAt z i p = corrAt x i p + r • corrAt y i p := by
  unfold cmdAt measureAt corrAt
  rcases e3_get h i with ⟨h1, h2, h3⟩ | ⟨a, b, c, h1, h2, h3, h4⟩
  · simp [h1, h2, h3]
  · simp only [h1, h2, h3, Option.map_some, Option.getD_some]
    exact ⟨getD_mix h4.cmds p, getD_mix h4.slopes p, getD_mixS h4.seenBySci p⟩

/-- **C126 (sums).**  The answer to a weighted sum of any number of turbulences is the weighted sum of the answers.  With the layers and frames taken one by one it is the sum of the answers to what each layer shows in each frame; with probabilities as weights
the mean answer is the answer to the mean turbulence. -/
theorem C126_sums (o : Optics) (ho : Optics.Sound o) (dms : List Persist.Dm) (cmat : List (List ℚ)) (loopDelay : ℤ) (nIters : ℕ) (saveSlopes saveDmCommands : Bool) (ctl : List DmCtl) (nMeas nActs : ℕ) (frames : List (List DmCtl))
    (sys : Sys Stack) (hsys : sys = o.sys dms cmat loopDelay nIters saveSlopes saveDmCommands) (w : ℕ → ℚ) (t : ℕ → ℕ → ℕ → ℕ → ℕ → ℚ) (s : ℕ → Loop.State Unit Stack) (x : ℕ → List (Trace Stack)) (n : ℕ)
    (h : ∀ k, k ≤ n → runLoop sys (o.plant (t k)) (initial sys ctl nMeas nActs ()) frames = .ok (s k, x k)) :
    ∃ s' x', runLoop sys (o.plant fun i l a b => ∑ k ∈ Finset.range (n + 1), w k * t k i l a b) (initial sys ctl nMeas nActs ()) frames = .ok (s', x') ∧ x'.length = frames.length ∧
      ∀ i p, cmdAt x' i p = ∑ k ∈ Finset.range (n + 1), w k * cmdAt (x k) i p ∧ measureAt x' i p = ∑ k ∈ Finset.range (n + 1), w k * measureAt (x k) i p ∧ corrAt x' i p = ∑ k ∈ Finset.range (n + 1), w k • corrAt (x k) i p := by
  have hlen : ∀ (pl : Plant Unit Stack) (fs : List (List DmCtl)) s s' x', runLoop sys pl s fs = .ok (s', x') → x'.length = fs.length := by
    intro pl fs
    induction fs with
    | nil => intro s s' x' h; simp only [runLoop, Except.ok.injEq, Prod.mk.injEq] at h; rw [← h.2]; rfl
    | cons f fs ih =>
      intro s s' x' h
      simp only [runLoop] at h
      cases e1 : loopFrame sys pl f s with
      | error e => rw [e1] at h; simp at h
      | ok u =>
        rw [e1] at h
        simp only at h
        cases e2 : runLoop sys pl u.1 fs with
        | error e => rw [e2] at h; simp at h
        | ok v =>
          rw [e2] at h
          simp only [Except.ok.injEq, Prod.mk.injEq] at h
          rw [← h.2, List.length_cons, List.length_cons, ih _ _ _ e2]
  induction n with
  | zero =>
    have h0 := h 0 le_rfl
    obtain ⟨s', x', h1, _, h2⟩ := C126_whole o ho dms cmat loopDelay nIters saveSlopes saveDmCommands ctl nMeas nActs frames (w 0 - 1) (t 0) (t 0) _ _ _ _ sys hsys h0 h0
    have e : (fun i l a b => ∑ k ∈ Finset.range (0 + 1), w k * t k i l a b) = addTurb (w 0 - 1) (t 0) (t 0) := by
      funext i l a b
      simp only [zero_add, Finset.sum_range_one, addTurb]
      ring
    refine ⟨s', x', by rw [e]; exact h1, hlen _ _ _ _ _ h1, fun i p => ?_⟩
    obtain ⟨g1, g2, g3⟩ := at_mix h2 i p
    rw [g1, g2, g3]
    simp only [zero_add, Finset.sum_range_one]
    refine ⟨by ring, by ring, ?_⟩
    rw [sub_smul, one_smul]
    abel
  | succ n ih =>
    obtain ⟨s', x', h1, _, h2⟩ := ih fun k hk => h k (by omega)
    obtain ⟨s'', x'', h3, _, h4⟩ := C126_whole o ho dms cmat loopDelay nIters saveSlopes saveDmCommands ctl nMeas nActs frames (w (n + 1)) _ (t (n + 1)) _ _ _ _ sys hsys h1 (h (n + 1) le_rfl)
    have e : (fun i l a b => ∑ k ∈ Finset.range (n + 1 + 1), w k * t k i l a b) = addTurb (w (n + 1)) (fun i l a b => ∑ k ∈ Finset.range (n + 1), w k * t k i l a b) (t (n + 1)) := by
      funext i l a b
      rw [Finset.sum_range_succ]
      rfl
    refine ⟨s'', x'', by rw [e]; exact h3, hlen _ _ _ _ _ h3, fun i p => ?_⟩
    obtain ⟨g1, g2, g3⟩ := at_mix h4 i p
    obtain ⟨k1, k2, k3⟩ := h2 i p
    rw [g1, g2, g3, k1, k2, k3, Finset.sum_range_succ _ (n + 1), Finset.sum_range_succ _ (n + 1), Finset.sum_range_succ _ (n + 1)]
    exact ⟨rfl, rfl, rfl⟩

/-- **C126 (quiet).**  Without turbulence nothing moves: no command, no measurement, no correction, whatever the gains. -/
theorem C126_quiet (o : Optics) (ho : Optics.Sound o) (dms : List Persist.Dm) (cmat : List (List ℚ)) (loopDelay : ℤ) (nIters : ℕ) (saveSlopes saveDmCommands : Bool) (ctl : List DmCtl) (nMeas nActs : ℕ) (frames : List (List DmCtl))
    (sys : Sys Stack) (hsys : sys = o.sys dms cmat loopDelay nIters saveSlopes saveDmCommands) (t : ℕ → ℕ → ℕ → ℕ → ℚ) (ht : ∀ i l a b, t i l a b = 0) (s : Loop.State Unit Stack) (x : List (Trace Stack))
    (h : runLoop sys (o.plant t) (initial sys ctl nMeas nActs ()) frames = .ok (s, x)) : ∀ i p, cmdAt x i p = 0 ∧ measureAt x i p = 0 ∧ corrAt x i p = 0 := by
  intro i p
  obtain ⟨s', x', h1, _, h2⟩ := C126_whole o ho dms cmat loopDelay nIters saveSlopes saveDmCommands ctl nMeas nActs frames 1 t t _ _ _ _ sys hsys h h
  have e : addTurb 1 t t = t := by
    funext i l a b
    simp [addTurb, ht]
  rw [e, h] at h1
  simp only [Except.ok.injEq, Prod.mk.injEq] at h1
  obtain ⟨_, rfl⟩ := h1
  obtain ⟨g1, g2, g3⟩ := at_mix h2 i p
  refine ⟨by linarith, by linarith, ?_⟩
  rw [one_smul] at g3
  exact left_eq_add.mp g3

/-! ### An example -/

private theorem whole_runs (turb : ℕ → ℕ → ℕ → ℕ → ℚ) (dms' : List Persist.Dm) (h1 : wholeOptics.calibrate 4 wholeDms = .ok (dms', wholeImat)) (h2 : ∀ d ∈ dms', d.shapes ≠ []) :
    ∃ s' ts, runLoop (wholeOptics.sys dms' wholeCmat 1 100 true false) (wholeOptics.plant turb) (initial (wholeOptics.sys dms' wholeCmat 1 100 true false) (controls dms' [1 / 2, 1 / 4]) 4 4 ()) (List.replicate 100 (controls dms' [1 / 2, 1 / 4])) = .ok (s', ts) := by
  obtain ⟨s', ts, r1, _⟩ := C111_whole wholeOptics whole_sound 4 wholeDms dms' wholeImat h1 (by simp [wholeDms])
    (by intro d hd; simp only [wholeDms, List.mem_cons, List.not_mem_nil, or_false] at hd; rcases hd with rfl | rfl <;> exact ⟨rfl, rfl⟩) h2 wholeCmat rfl (by decide) whole_undoes
    [1 / 2, 1 / 4] rfl 1 100 4 100 (by norm_num) true false (fun h => nomatch h) turb
  exact ⟨s', ts, r1⟩

/-- Two sensors and two mirrors: the answer to one turbulence and twice another. -/
example (t₁ t₂ : ℕ → ℕ → ℕ → ℕ → ℚ) : ∃ dms', wholeOptics.calibrate 4 wholeDms = .ok (dms', wholeImat) ∧ ∃ s₁ s₂ s₃ x₁ x₂ x₃,
    let sys := wholeOptics.sys dms' wholeCmat 1 100 true false
    let run := fun t => runLoop sys (wholeOptics.plant t) (initial sys (controls dms' [1 / 2, 1 / 4]) 4 4 ()) (List.replicate 100 (controls dms' [1 / 2, 1 / 4]))
    run t₁ = .ok (s₁, x₁) ∧ run t₂ = .ok (s₂, x₂) ∧ run (addTurb 2 t₁ t₂) = .ok (s₃, x₃) ∧ ∀ i p, cmdAt x₃ i p = cmdAt x₁ i p + 2 * cmdAt x₂ i p := by
  obtain ⟨dms', h1, h2⟩ := whole_ok
  obtain ⟨s₁, x₁, r1⟩ := whole_runs t₁ dms' h1 h2
  obtain ⟨s₂, x₂, r2⟩ := whole_runs t₂ dms' h1 h2
  obtain ⟨s₃, x₃, r3, _, r4⟩ := C126_whole wholeOptics whole_sound dms' wholeCmat 1 100 true false _ 4 4 _ 2 t₁ t₂ _ _ _ _ _ rfl r1 r2
  exact ⟨dms', h1, s₁, s₂, s₃, x₁, x₂, x₃, r1, r2, r3, fun i p => (at_mix r4 i p).1⟩

/-- The two sensors together measure something when the turbulence is not flat: the statements are not about zeros. -/
example : wholeOptics.uncorrected (fun l i _ => if l = 0 then 3 * i else 0) = [6, 0, 6, 0] := by decide +kernel

/-- A loop that runs, for the other two theorems. -/
example (t : ℕ → ℕ → ℕ → ℕ → ℕ → ℚ) (w : ℕ → ℚ) : ∃ (dms' : List Persist.Dm) (s : ℕ → Loop.State Unit Stack) (x : ℕ → List (Trace Stack)) (s' : Loop.State Unit Stack) (x' : List (Trace Stack)), wholeOptics.calibrate 4 wholeDms = .ok (dms', wholeImat) ∧
    (∀ k ≤ 7, runLoop (wholeOptics.sys dms' wholeCmat 1 100 true false) (wholeOptics.plant (t k)) (initial (wholeOptics.sys dms' wholeCmat 1 100 true false) (controls dms' [1 / 2, 1 / 4]) 4 4 ()) (List.replicate 100 (controls dms' [1 / 2, 1 / 4])) = .ok (s k, x k)) ∧
    runLoop (wholeOptics.sys dms' wholeCmat 1 100 true false) (wholeOptics.plant fun i l a b => ∑ k ∈ Finset.range 8, w k * t k i l a b) (initial (wholeOptics.sys dms' wholeCmat 1 100 true false) (controls dms' [1 / 2, 1 / 4]) 4 4 ())
      (List.replicate 100 (controls dms' [1 / 2, 1 / 4])) = .ok (s', x') ∧ ∀ i p, cmdAt x' i p = ∑ k ∈ Finset.range 8, w k * cmdAt (x k) i p := by
  obtain ⟨dms', h1, h2⟩ := whole_ok
  choose s x hr using fun k => whole_runs (t k) dms' h1 h2
  obtain ⟨s', x', r1, _, r2⟩ := C126_sums wholeOptics whole_sound dms' wholeCmat 1 100 true false _ 4 4 _ _ rfl w t s x 7 fun k _ => hr k
  exact ⟨dms', s, x, s', x', h1, fun k _ => hr k, r1, fun i p => (r2 i p).1⟩

end Soapy.Props
