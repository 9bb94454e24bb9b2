/-
A static analysis of the programs in `Model/Attr.lean` and its soundness: from bounds on the attributes an object has, the errors a piece of code can end with and bounds on the attributes afterwards.
-/
import Verif.Model.Attr
import Mathlib.Data.Nat.Bitwise
import Mathlib.Tactic.Common

namespace Soapy.Attr

set_option linter.unusedSimpArgs false

open Instr

/-- Position of an attribute in a bit mask. -/
def Att.bit (a : Att) : ℕ := a.ctorIdx

theorem Att.bit_inj {a b : Att} (h : a.bit = b.bit) : a = b := by
  have := congrArg Att.ofNat h
  simpa [Att.bit, Att.ofNat_ctorIdx] using this

/-- Bounds: attributes surely there, attributes possibly there. -/
abbrev Bd := ℕ × ℕ

/-- An object within bounds. -/
def In (s : Bd) (o : Obj) : Prop := (∀ a : Att, s.1.testBit a.bit = true → o a = true) ∧ ∀ a : Att, o a = true → s.2.testBit a.bit = true

/-- Switch a bit on. -/
def on (x i : ℕ) : ℕ := x ||| 2 ^ i

/-- Switch a bit off. -/
def off (x i : ℕ) : ℕ := if x.testBit i then x ^^^ 2 ^ i else x

theorem testBit_on (x i j : ℕ) : (on x i).testBit j = (x.testBit j || decide (i = j)) := by
  simp [on, Nat.testBit_or, Nat.testBit_two_pow]

theorem testBit_off (x i j : ℕ) : (off x i).testBit j = (x.testBit j && !decide (i = j)) := by
  unfold off
  by_cases hij : i = j
  · subst hij
    by_cases h : x.testBit i = true <;> simp [h, Nat.testBit_xor]
  · by_cases h : x.testBit i = true <;> simp [h, hij, Nat.testBit_xor]

/-- `k x`, in a form in which the kernel works out `x` once. -/
def force {α : Type} (x : ℕ) (k : ℕ → α) : α := match x with
  | 0 => k 0
  | n + 1 => k (n + 1)

theorem force_eq {α : Type} (x : ℕ) (k : ℕ → α) : force x k = k x := by cases x <;> rfl

/-- Least common bounds. -/
def join (s t : Bd) : Bd := (s.1 &&& t.1, s.2 ||| t.2)

/-- `s` is within `t`. -/
def le (s t : Bd) : Bool := decide (t.1 &&& s.1 = t.1) && decide (s.2 ||| t.2 = t.2)

theorem In.mono {s t : Bd} (h : le s t = true) {o : Obj} (ho : In s o) : In t o := by
  simp only [le, Bool.and_eq_true, decide_eq_true_eq] at h
  refine ⟨fun a ha => ho.1 a ?_, fun a ha => ?_⟩
  · rw [← h.1, Nat.testBit_and, Bool.and_eq_true] at ha
    exact ha.2
  · rw [← h.2, Nat.testBit_or, ho.2 a ha, Bool.true_or]

theorem In.join_left {s t : Bd} {o : Obj} (ho : In s o) : In (join s t) o :=
  ⟨fun a ha => ho.1 a (by simp only [join, Nat.testBit_and, Bool.and_eq_true] at ha; exact ha.1), fun a ha => by simp [join, Nat.testBit_or, ho.2 a ha]⟩

theorem In.join_right {s t : Bd} {o : Obj} (ho : In t o) : In (join s t) o :=
  ⟨fun a ha => ho.1 a (by simp only [join, Nat.testBit_and, Bool.and_eq_true] at ha; exact ha.2), fun a ha => by simp [join, Nat.testBit_or, ho.2 a ha]⟩

theorem In.update_true {s : Bd} {o : Obj} (ho : In s o) (a : Att) : In (on s.1 a.bit, on s.2 a.bit) (Function.update o a true) := by
  refine ⟨fun b hb => ?_, fun b hb => ?_⟩
  · by_cases h : b = a
    · simp [h]
    · rw [Function.update_of_ne h]
      have hne : a.bit ≠ b.bit := fun e => h (Att.bit_inj e).symm
      simp only [testBit_on, hne, decide_false, Bool.or_false] at hb
      exact ho.1 b hb
  · by_cases h : b = a
    · simp [h, testBit_on]
    · rw [Function.update_of_ne h] at hb
      simp [testBit_on, ho.2 b hb]

theorem In.update_false {s : Bd} {o : Obj} (ho : In s o) (a : Att) : In (off s.1 a.bit, off s.2 a.bit) (Function.update o a false) := by
  refine ⟨fun b hb => ?_, fun b hb => ?_⟩
  · by_cases h : b = a
    · subst h; simp [testBit_off] at hb
    · rw [Function.update_of_ne h]
      simp only [testBit_off, Bool.and_eq_true] at hb
      exact ho.1 b hb.1
  · by_cases h : b = a
    · subst h; simp at hb
    · rw [Function.update_of_ne h] at hb
      have hne : a.bit ≠ b.bit := fun e => h (Att.bit_inj e).symm
      simp [testBit_off, ho.2 b hb, hne]

/-- Result of the analysis: possible errors, and bounds on the attributes if the code can end well.  `none`: not enough fuel, or no invariant found. -/
abbrev Ana := Option (List Err × Option Bd)

/-- Join of two results. -/
def joinR : Option Bd → Option Bd → Option Bd
  | none, t => t
  | s, none => s
  | some s, some t => some (join s t)

/-- The same, worked out. -/
def joinA (e : List Err) : Option Bd → Option Bd → Ana
  | none, t => some (e, t)
  | s, none => some (e, s)
  | some s, some t => force (s.1 &&& t.1) fun l => force (s.2 ||| t.2) fun h => some (e, some (l, h))

theorem joinA_eq (e : List Err) (s t : Option Bd) : joinA e s t = some (e, joinR s t) := by
  cases s <;> cases t <;> simp [joinA, joinR, force_eq, join]

/-- Bounds that hold before every round of a loop, if they hold after it. -/
def wider (s : Bd) : Option Bd → Bd
  | none => s
  | some s1 => join s s1

/-- The analysis. -/
def an (cls : Cls) : ℕ → Env → Bd → Code → Ana
  | 0, _, _, _ => none
  | _ + 1, _, s, .seq [] => some ([], some s)
  | n + 1, env, s, .seq (i :: r) => match an cls n env s (.one i) with
    | none => none
    | some (e, none) => some (e, none)
    | some (e, some s') => match an cls n env s' (.seq r) with
      | none => none
      | some (e', t) => some (e ++ e', t)
  | n + 1, env, s, .one (asg a) => match setter cls a with
    | none => force (on s.1 a.bit) fun l => force (on s.2 a.bit) fun h => some ([], some (l, h))
    | some m => an cls n env s (.one (call m [] []))
  | n + 1, env, s, .one (rd a) => match getter cls a with
    | none => if s.1.testBit a.bit then some ([], some s) else if s.2.testBit a.bit then force (on s.1 a.bit) fun l => some ([.attributeError a], some (l, s.2)) else some ([.attributeError a], none)
    | some m => an cls n env s (.one (call m [] []))
  | _ + 1, _, s, .one (del a) => force (off s.1 a.bit) fun l => force (off s.2 a.bit) fun h => some ([], some (l, h))
  | _ + 1, _, s, .one (glob g) => if defined g then some ([], some s) else some ([.nameError g], none)
  | n + 1, env, s, .one (call m kw args) => match enter (mro cls) env m kw args with
    | .error e => some ([e], none)
    | .ok (env', b) => an cls n env' s (.seq b)
  | n + 1, env, s, .one (sup c m kw) => match enter (after cls c) env m kw [] with
    | .error e => some ([e], none)
    | .ok (env', b) => an cls n env' s (.seq b)
  | n + 1, env, s, .one (ifc c t e) => an cls n env s (.seq (if env c then t else e))
  | n + 1, env, s, .one (ifa t e) => match an cls n env s (.seq t) with
    | none => none
    | some (e1, r1) => match an cls n env s (.seq e) with
      | none => none
      | some (e2, r2) => joinA (e1 ++ e2) r1 r2
  | n + 1, env, s, .one (loop b) => match an cls n env s (.seq b) with
    | none => none
    | some (_, r1) => force (wider s r1).1 fun l => force (wider s r1).2 fun h => match an cls n env (l, h) (.seq b) with
      | none => none
      | some (e2, none) => some (e2, some (l, h))
      | some (e2, some s2) => if le s2 (l, h) then some (e2, some (l, h)) else none

/-- The result of an execution agrees with the result of the analysis. -/
def Agrees (p : List Err × Option Bd) : Except Err Obj → Prop
  | .ok o => ∃ s, p.2 = some s ∧ In s o
  | .error e => e ∈ p.1

theorem In.attr {s : Bd} {o : Obj} (ho : In s o) {a : Att} (h : o a = true) : In (on s.1 a.bit, s.2) o := by
  refine ⟨fun b hb => ?_, ho.2⟩
  simp only [testBit_on, Bool.or_eq_true, decide_eq_true_eq] at hb
  rcases hb with hb | hb
  · exact ho.1 b hb
  · rwa [← Att.bit_inj hb]

theorem Agrees.join {e1 e2 : List Err} {r1 r2 : Option Bd} {res : Except Err Obj} (h : Agrees (e1, r1) res ∨ Agrees (e2, r2) res) : Agrees (e1 ++ e2, joinR r1 r2) res := by
  cases res with
  | error e => rcases h with h | h <;> simp [Agrees] at h ⊢ <;> simp [h]
  | ok o =>
    rcases h with ⟨s, hs, ho⟩ | ⟨s, hs, ho⟩ <;> simp only at hs <;> subst hs
    · cases r2 with
      | none => exact ⟨s, rfl, ho⟩
      | some t => exact ⟨_, rfl, ho.join_left⟩
    · cases r1 with
      | none => exact ⟨s, rfl, ho⟩
      | some t => exact ⟨_, rfl, ho.join_right⟩

theorem loop_sound {cls : Cls} {env : Env} {b : List Instr} {inv : Bd} {errs : List Err}
    (hb : ∀ o, In inv o → ∀ res, Exec cls env o (.seq b) res → match res with | .ok o' => In inv o' | .error e => e ∈ errs) :
    ∀ o, In inv o → ∀ res, Exec cls env o (.one (loop b)) res → Agrees (errs, some inv) res := by
  intro o ho res h
  generalize hc : Code.one (loop b) = c at h
  induction h with
  | loop_end env o b' => exact ⟨inv, rfl, ho⟩
  | loop_err env o b' e h ih =>
    cases hc
    exact hb o ho _ h
  | loop_more env o b' o' res h1 h2 ih1 ih2 =>
    cases hc
    exact ih2 hb (hb o ho _ h1) rfl
  | _ => cases hc

/-- Every execution ends as the analysis says. -/
theorem an_sound (cls : Cls) : ∀ (n : ℕ) (env : Env) (s : Bd) (c : Code) (p : List Err × Option Bd), an cls n env s c = some p →
    ∀ o, In s o → ∀ res, Exec cls env o c res → Agrees p res := by
  intro n
  induction n with
  | zero => intro env s c p h; simp [an] at h
  | succ n ih =>
    intro env s c p h o ho res hx
    match c with
    | .seq [] =>
      simp only [an, Option.some.injEq] at h; subst h
      cases hx; exact ⟨s, rfl, ho⟩
    | .seq (i :: r) =>
      simp only [an, force_eq, joinA_eq] at h
      split at h
      · simp at h
      · rename_i e h1
        simp only [Option.some.injEq] at h; subst h
        cases hx with
        | cons_ok _ _ _ _ o' _ hx1 hx2 => obtain ⟨t, ht, _⟩ := ih _ _ _ _ h1 o ho _ hx1; simp at ht
        | cons_err _ _ _ _ e hx1 => exact ih _ _ _ _ h1 o ho _ hx1
      · rename_i e s' h1
        split at h
        · simp at h
        · rename_i e' t h2
          simp only [Option.some.injEq] at h; subst h
          cases hx with
          | cons_ok _ _ _ _ o' _ hx1 hx2 =>
            obtain ⟨u, hu, ho'⟩ := ih _ _ _ _ h1 o ho _ hx1
            simp only [Option.some.injEq] at hu; subst hu
            have := ih _ _ _ _ h2 o' ho' _ hx2
            cases res with
            | ok o'' => exact this
            | error e'' => exact List.mem_append_right _ this
          | cons_err _ _ _ _ e hx1 => exact List.mem_append_left _ (ih _ _ _ _ h1 o ho _ hx1)
    | .one (asg a) =>
      simp only [an, force_eq, joinA_eq] at h
      split at h
      · rename_i hs
        simp only [Option.some.injEq] at h; subst h
        cases hx with
        | asg _ _ _ h' => exact ⟨_, rfl, ho.update_true a⟩
        | asg_prop _ _ _ m _ h' hx' => simp [hs] at h'
      · rename_i m hs
        cases hx with
        | asg _ _ _ h' => simp [hs] at h'
        | asg_prop _ _ _ m' _ h' hx' =>
          rw [hs, Option.some.injEq] at h'; subst h'
          exact ih _ _ _ _ h o ho _ hx'
    | .one (rd a) =>
      simp only [an, force_eq, joinA_eq] at h
      split at h
      · rename_i hs
        split at h
        · rename_i hb
          simp only [Option.some.injEq] at h; subst h
          cases hx with
          | rd_ok _ _ _ h1 h2 => exact ⟨s, rfl, ho⟩
          | rd_err _ _ _ h1 h2 => rw [ho.1 a hb] at h2; simp at h2
          | rd_prop _ _ _ m _ h' hx' => simp [hs] at h'
        · split at h
          · rename_i hb
            simp only [Option.some.injEq] at h; subst h
            cases hx with
            | rd_ok _ _ _ h1 h2 => exact ⟨_, rfl, ho.attr h2⟩
            | rd_err _ _ _ h1 h2 => simp [Agrees]
            | rd_prop _ _ _ m _ h' hx' => simp [hs] at h'
          · rename_i hb
            simp only [Option.some.injEq] at h; subst h
            cases hx with
            | rd_ok _ _ _ h1 h2 => exact absurd (ho.2 a h2) hb
            | rd_err _ _ _ h1 h2 => simp [Agrees]
            | rd_prop _ _ _ m _ h' hx' => simp [hs] at h'
      · rename_i m hs
        cases hx with
        | rd_ok _ _ _ h1 h2 => simp [hs] at h1
        | rd_err _ _ _ h1 h2 => simp [hs] at h1
        | rd_prop _ _ _ m' _ h' hx' =>
          rw [hs, Option.some.injEq] at h'; subst h'
          exact ih _ _ _ _ h o ho _ hx'
    | .one (del a) =>
      simp only [an, force_eq, Option.some.injEq] at h; subst h
      cases hx; exact ⟨_, rfl, ho.update_false a⟩
    | .one (glob g) =>
      simp only [an, force_eq, joinA_eq] at h
      split at h <;> rename_i hg <;> simp only [Option.some.injEq] at h <;> subst h <;> cases hx with
      | glob_ok _ _ _ h' => first | exact ⟨s, rfl, ho⟩ | (rw [h'] at hg; simp at hg)
      | glob_err _ _ _ h' => first | (rw [h'] at hg; simp at hg; done) | simp [Agrees]
    | .one (call m kw args) =>
      simp only [an, force_eq, joinA_eq] at h
      split at h
      · rename_i e he
        simp only [Option.some.injEq] at h; subst h
        cases hx with
        | call_bad _ _ _ _ _ e' h' => rw [he] at h'; cases h'; simp [Agrees]
        | call _ _ _ _ _ env' b _ h' hx' => rw [he] at h'; cases h'
      · rename_i env' b he
        cases hx with
        | call_bad _ _ _ _ _ e' h' => rw [he] at h'; cases h'
        | call _ _ _ _ _ env'' b' _ h' hx' =>
          rw [he] at h'; cases h'
          exact ih _ _ _ _ h o ho _ hx'
    | .one (sup c m kw) =>
      simp only [an, force_eq, joinA_eq] at h
      split at h
      · rename_i e he
        simp only [Option.some.injEq] at h; subst h
        cases hx with
        | sup_bad _ _ _ _ _ e' h' => rw [he] at h'; cases h'; simp [Agrees]
        | sup _ _ _ _ _ env' b _ h' hx' => rw [he] at h'; cases h'
      · rename_i env' b he
        cases hx with
        | sup_bad _ _ _ _ _ e' h' => rw [he] at h'; cases h'
        | sup _ _ _ _ _ env'' b' _ h' hx' =>
          rw [he] at h'; cases h'
          exact ih _ _ _ _ h o ho _ hx'
    | .one (ifc c t e) =>
      simp only [an, force_eq, joinA_eq] at h
      cases hx with
      | ifc _ _ _ _ _ _ hx' => exact ih _ _ _ _ h o ho _ hx'
    | .one (ifa t e) =>
      simp only [an, force_eq, joinA_eq] at h
      split at h
      · simp at h
      · rename_i e1 r1 h1
        split at h
        · simp at h
        · rename_i e2 r2 h2
          simp only [Option.some.injEq] at h; subst h
          apply Agrees.join
          cases hx with
          | ifa_true _ _ _ _ _ hx' => exact Or.inl (ih _ _ _ _ h1 o ho _ hx')
          | ifa_false _ _ _ _ _ hx' => exact Or.inr (ih _ _ _ _ h2 o ho _ hx')
    | .one (loop b) =>
      simp only [an, force_eq, joinA_eq] at h
      split at h
      · simp at h
      · rename_i e1 r1 h1
        have hin : In (wider s r1) o := by
          cases r1 with
          | none => exact ho
          | some s1 => exact ho.join_left
        split at h
        · simp at h
        · rename_i e2 h2
          simp only [Option.some.injEq] at h; subst h
          refine loop_sound ?_ o hin res hx
          intro o' ho' res' hx'
          have := ih _ _ _ _ h2 o' ho' _ hx'
          cases res' with
          | ok o'' => obtain ⟨_, hs, _⟩ := this; simp at hs
          | error e => exact this
        · rename_i e2 s2 h2
          split at h
          · rename_i hle
            simp only [Option.some.injEq] at h; subst h
            refine loop_sound ?_ o hin res hx
            intro o' ho' res' hx'
            have := ih _ _ _ _ h2 o' ho' _ hx'
            cases res' with
            | ok o'' =>
              obtain ⟨_, hs, hi⟩ := this
              simp only [Option.some.injEq] at hs; subst hs
              exact hi.mono hle
            | error e => exact this
          · simp at h

/-- Code the analysis answers for has an execution. -/
theorem an_exec (cls : Cls) : ∀ (n : ℕ) (env : Env) (s : Bd) (c : Code) (p : List Err × Option Bd), an cls n env s c = some p →
    ∀ o, In s o → ∃ res, Exec cls env o c res := by
  intro n
  induction n with
  | zero => intro env s c p h; simp [an] at h
  | succ n ih =>
    intro env s c p h o ho
    match c with
    | .seq [] => exact ⟨_, .nil _ _⟩
    | .seq (i :: r) =>
      simp only [an, force_eq, joinA_eq] at h
      split at h
      · simp at h
      · rename_i e h1
        obtain ⟨res, hx⟩ := ih _ _ _ _ h1 o ho
        cases res with
        | error e => exact ⟨_, .cons_err _ _ _ _ _ hx⟩
        | ok o' => obtain ⟨t, ht, _⟩ := an_sound cls _ _ _ _ _ h1 o ho _ hx; simp at ht
      · rename_i e s' h1
        split at h
        · simp at h
        · rename_i e' t h2
          obtain ⟨res, hx⟩ := ih _ _ _ _ h1 o ho
          cases res with
          | error e => exact ⟨_, .cons_err _ _ _ _ _ hx⟩
          | ok o' =>
            obtain ⟨u, hu, ho'⟩ := an_sound cls _ _ _ _ _ h1 o ho _ hx
            simp only [Option.some.injEq] at hu; subst hu
            obtain ⟨res', hx'⟩ := ih _ _ _ _ h2 o' ho'
            exact ⟨_, .cons_ok _ _ _ _ _ _ hx hx'⟩
    | .one (asg a) =>
      simp only [an, force_eq, joinA_eq] at h
      split at h
      · rename_i hs; exact ⟨_, .asg _ _ _ hs⟩
      · rename_i m hs
        obtain ⟨res, hx⟩ := ih _ _ _ _ h o ho
        exact ⟨_, .asg_prop _ _ _ _ _ hs hx⟩
    | .one (rd a) =>
      simp only [an, force_eq, joinA_eq] at h
      split at h
      · rename_i hs
        cases hoa : o a with
        | true => exact ⟨_, .rd_ok _ _ _ hs hoa⟩
        | false => exact ⟨_, .rd_err _ _ _ hs hoa⟩
      · rename_i m hs
        obtain ⟨res, hx⟩ := ih _ _ _ _ h o ho
        exact ⟨_, .rd_prop _ _ _ _ _ hs hx⟩
    | .one (del a) => exact ⟨_, .del _ _ _⟩
    | .one (glob g) =>
      cases hg : defined g with
      | true => exact ⟨_, .glob_ok _ _ _ hg⟩
      | false => exact ⟨_, .glob_err _ _ _ hg⟩
    | .one (call m kw args) =>
      simp only [an, force_eq, joinA_eq] at h
      split at h
      · rename_i e he; exact ⟨_, .call_bad _ _ _ _ _ _ he⟩
      · rename_i env' b he
        obtain ⟨res, hx⟩ := ih _ _ _ _ h o ho
        exact ⟨_, .call _ _ _ _ _ _ _ _ he hx⟩
    | .one (sup c m kw) =>
      simp only [an, force_eq, joinA_eq] at h
      split at h
      · rename_i e he; exact ⟨_, .sup_bad _ _ _ _ _ _ he⟩
      · rename_i env' b he
        obtain ⟨res, hx⟩ := ih _ _ _ _ h o ho
        exact ⟨_, .sup _ _ _ _ _ _ _ _ he hx⟩
    | .one (ifc c t e) =>
      simp only [an, force_eq, joinA_eq] at h
      obtain ⟨res, hx⟩ := ih _ _ _ _ h o ho
      exact ⟨_, .ifc _ _ _ _ _ _ hx⟩
    | .one (ifa t e) =>
      simp only [an, force_eq, joinA_eq] at h
      split at h
      · simp at h
      · rename_i e1 r1 h1
        obtain ⟨res, hx⟩ := ih _ _ _ _ h1 o ho
        exact ⟨_, .ifa_true _ _ _ _ _ hx⟩
    | .one (loop b) => exact ⟨_, .loop_end _ _ _⟩

/-! ### Lists of uses -/

theorem exec_append {cls : Cls} {env : Env} (r : List Instr) : ∀ (l : List Instr) (o : Obj) (res : Except Err Obj),
    Exec cls env o (.seq (l ++ r)) res ↔ (∃ o', Exec cls env o (.seq l) (.ok o') ∧ Exec cls env o' (.seq r) res) ∨ ∃ e, Exec cls env o (.seq l) (.error e) ∧ res = .error e := by
  intro l
  induction l with
  | nil =>
    intro o res
    constructor
    · intro h; exact Or.inl ⟨o, .nil _ _, h⟩
    · rintro (⟨o', h1, h2⟩ | ⟨e, h1, _⟩)
      · cases h1; exact h2
      · cases h1
  | cons i l ih =>
    intro o res
    constructor
    · intro h
      cases h with
      | cons_ok _ _ _ _ o' _ h1 h2 =>
        rcases (ih o' res).1 h2 with ⟨o'', h3, h4⟩ | ⟨e, h3, h4⟩
        · exact Or.inl ⟨o'', .cons_ok _ _ _ _ _ _ h1 h3, h4⟩
        · exact Or.inr ⟨e, .cons_ok _ _ _ _ _ _ h1 h3, h4⟩
      | cons_err _ _ _ _ e h1 => exact Or.inr ⟨e, .cons_err _ _ _ _ _ h1, rfl⟩
    · rintro (⟨o', h1, h2⟩ | ⟨e, h1, h2⟩)
      · cases h1 with
        | cons_ok _ _ _ _ o'' _ h3 h4 => exact .cons_ok _ _ _ _ _ _ h3 ((ih o'' res).2 (Or.inl ⟨o', h4, h2⟩))
      · subst h2
        cases h1 with
        | cons_ok _ _ _ _ o'' _ h3 h4 => exact .cons_ok _ _ _ _ _ _ h3 ((ih o'' _).2 (Or.inr ⟨e, h4, rfl⟩))
        | cons_err _ _ _ _ _ h3 => exact .cons_err _ _ _ _ _ h3

/-- Enough fuel for every program here. -/
def fuel : ℕ := 400

/-- The analysis says: ends well, within these bounds. -/
def good (inv : Bd) : Ana → Bool
  | some ([], some s) => le s inv
  | _ => false

/-- The analysis says: fails, and with this error. -/
def bad (e : Err) : Ana → Bool
  | some (es, none) => es.all (· = e)
  | _ => false

/-- All uses. -/
def uses : List Use :=
  [.frame false false false, .frame false false true, .frame false true false, .frame false true true, .frame true false false, .frame true false true, .frame true true false, .frame true true true,
   .simple false, .simple true, .setMask, .size]

theorem mem_uses (u : Use) : u ∈ uses := by
  cases u with
  | frame r c i => cases r <;> cases c <;> cases i <;> decide
  | simple i => cases i <;> decide
  | setMask => decide
  | size => decide

/-- Every attribute but these. -/
def allBut (miss : List Att) : ℕ := miss.foldl (fun h a => off h a.bit) (2 ^ 160 - 1)

/-- Within bounds every allowed use ends well and stays within them, and these uses fail. -/
def steady (cls : Cls) (cfg : Cfg) (ok : Use → Bool) (failing : List (Use × Err)) (inv : Bd) : Bool :=
  (uses.all fun u => !ok u || good inv (an cls fuel cfg.env inv (.seq u.code))) && failing.all fun p => bad p.2 (an cls fuel cfg.env inv (.seq p.1.code))

/-- The check of a class: construction ends well without the attributes `miss`, and then `steady`. -/
def sane (cls : Cls) (cfg : Cfg) (ok : Use → Bool) (miss : List Att) (failing : List (Use × Err)) : Bool :=
  match an cls fuel cfg.env (0, 0) (.seq construct) with
  | some ([], some s) => force s.1 fun l => force (allBut miss) fun h => le s (l, h) && steady cls cfg ok failing (l, h)
  | _ => false

theorem good_sound {cls : Cls} {env : Env} {s inv : Bd} {c : Code} (h : good inv (an cls fuel env s c) = true) {o : Obj} (ho : In s o) :
    (∃ o', Exec cls env o c (.ok o')) ∧ ∀ res, Exec cls env o c res → ∃ o', res = .ok o' ∧ In inv o' := by
  match ha : an cls fuel env s c with
  | none => rw [ha] at h; simp [good] at h
  | some (e :: es, r) => rw [ha] at h; simp [good] at h
  | some ([], none) => rw [ha] at h; simp [good] at h
  | some ([], some t) =>
    rw [ha] at h
    have key : ∀ res, Exec cls env o c res → ∃ o', res = .ok o' ∧ In inv o' := by
      intro res hx
      have := an_sound cls _ _ _ _ _ ha o ho res hx
      cases res with
      | ok o' =>
        obtain ⟨_, hs, hi⟩ := this
        simp only [Option.some.injEq] at hs; subst hs
        exact ⟨o', rfl, hi.mono h⟩
      | error e => simp [Agrees] at this
    obtain ⟨res, hx⟩ := an_exec cls _ _ _ _ _ ha o ho
    obtain ⟨o', rfl, _⟩ := key res hx
    exact ⟨⟨o', hx⟩, key⟩

theorem bad_sound {cls : Cls} {env : Env} {s : Bd} {c : Code} {e : Err} (h : bad e (an cls fuel env s c) = true) {o : Obj} (ho : In s o) :
    Exec cls env o c (.error e) ∧ ∀ res, Exec cls env o c res → res = .error e := by
  match ha : an cls fuel env s c with
  | none => rw [ha] at h; simp [bad] at h
  | some (es, some t) => rw [ha] at h; simp [bad] at h
  | some (es, none) =>
    rw [ha] at h
    simp only [bad, List.all_eq_true, decide_eq_true_eq] at h
    have key : ∀ res, Exec cls env o c res → res = .error e := by
      intro res hx
      have := an_sound cls _ _ _ _ _ ha o ho res hx
      cases res with
      | ok o' => obtain ⟨_, hs, _⟩ := this; simp at hs
      | error e' => rw [h e' this]
    obtain ⟨res, hx⟩ := an_exec cls _ _ _ _ _ ha o ho
    have := key res hx
    subst this
    exact ⟨hx, key⟩

theorem in_fresh : In (0, 0) fresh := ⟨fun a h => by simp at h, fun a h => by simp [fresh] at h⟩

theorem sane_inv {cls : Cls} {cfg : Cfg} {ok : Use → Bool} {miss : List Att} {failing : List (Use × Err)} (h : sane cls cfg ok miss failing = true) :
    ∃ inv : Bd, good inv (an cls fuel cfg.env (0, 0) (.seq construct)) = true ∧ steady cls cfg ok failing inv = true := by
  unfold sane at h
  split at h
  · rename_i s hs
    rw [force_eq, force_eq, Bool.and_eq_true] at h
    exact ⟨_, by rw [hs]; exact h.1, h.2⟩
  · simp at h

/-- Every life made of allowed uses ends well, within the same bounds. -/
theorem steady_sound {cls : Cls} {cfg : Cfg} {ok : Use → Bool} {failing : List (Use × Err)} {inv : Bd} (h0 : good inv (an cls fuel cfg.env (0, 0) (.seq construct)) = true)
    (h : steady cls cfg ok failing inv = true) (us : List Use) (hus : ∀ u ∈ us, ok u = true) :
    (∃ o, Life cls cfg us (.ok o)) ∧ ∀ res, Life cls cfg us res → ∃ o, res = .ok o ∧ In inv o := by
  simp only [steady, Bool.and_eq_true, List.all_eq_true] at h
  obtain ⟨hu, _⟩ := h
  have run : ∀ (us : List Use), (∀ u ∈ us, ok u = true) → ∀ o, In inv o →
      (∃ o', Exec cls cfg.env o (.seq (us.flatMap Use.code)) (.ok o')) ∧ ∀ res, Exec cls cfg.env o (.seq (us.flatMap Use.code)) res → ∃ o', res = .ok o' ∧ In inv o' := by
    intro us
    induction us with
    | nil =>
      intro _ o ho
      refine ⟨⟨o, .nil _ _⟩, fun res hx => ?_⟩
      cases hx
      exact ⟨o, rfl, ho⟩
    | cons u us ih =>
      intro hus o ho
      have hg := hu u (mem_uses u)
      rw [hus u (by simp)] at hg
      simp only [Bool.not_true, Bool.false_or] at hg
      obtain ⟨⟨o1, hx1⟩, hall⟩ := good_sound hg ho
      rw [List.flatMap_cons]
      obtain ⟨_, e1, ho1⟩ := hall _ hx1
      cases e1
      have ih' := ih fun v hv => hus v (by simp [hv])
      obtain ⟨⟨o2, hx2⟩, _⟩ := ih' o1 ho1
      refine ⟨⟨o2, (exec_append _ _ _ _).2 (Or.inl ⟨o1, hx1, hx2⟩)⟩, fun res hx => ?_⟩
      rcases (exec_append _ _ _ _).1 hx with ⟨o3, h3, h4⟩ | ⟨e, h3, _⟩
      · obtain ⟨_, e3, ho3⟩ := hall _ h3
        cases e3
        exact (ih' o3 ho3).2 res h4
      · obtain ⟨_, e3, _⟩ := hall _ h3
        cases e3
  obtain ⟨⟨o1, hx1⟩, hall⟩ := good_sound h0 in_fresh
  obtain ⟨_, e1, ho1⟩ := hall _ hx1
  cases e1
  obtain ⟨⟨o2, hx2⟩, _⟩ := run us hus o1 ho1
  refine ⟨⟨o2, (exec_append _ _ _ _).2 (Or.inl ⟨o1, hx1, hx2⟩)⟩, fun res hx => ?_⟩
  rcases (exec_append _ _ _ _).1 hx with ⟨o3, h3, h4⟩ | ⟨e, h3, _⟩
  · obtain ⟨_, e3, ho3⟩ := hall _ h3
    cases e3
    exact (run us hus o3 ho3).2 res h4
  · obtain ⟨_, e3, _⟩ := hall _ h3
    cases e3

/-- Every life made of allowed uses ends well. -/
theorem sane_sound {cls : Cls} {cfg : Cfg} {ok : Use → Bool} {miss : List Att} {failing : List (Use × Err)} (h : sane cls cfg ok miss failing = true) (us : List Use) (hus : ∀ u ∈ us, ok u = true) :
    (∃ o, Life cls cfg us (.ok o)) ∧ ∀ res, Life cls cfg us res → ∃ o, res = .ok o := by
  obtain ⟨inv, h0, h1⟩ := sane_inv h
  obtain ⟨h2, h3⟩ := steady_sound h0 h1 us hus
  exact ⟨h2, fun res hr => (h3 res hr).imp fun _ p => p.1⟩

/-- After any allowed uses one more use fails. -/
theorem sane_then_bad {cls : Cls} {cfg : Cfg} {ok : Use → Bool} {miss : List Att} {failing : List (Use × Err)} (h : sane cls cfg ok miss failing = true) (us : List Use) (hus : ∀ u ∈ us, ok u = true) (u : Use) (e : Err)
    (hb : (u, e) ∈ failing) : Life cls cfg (us ++ [u]) (.error e) ∧ ∀ res, Life cls cfg (us ++ [u]) res → res = .error e := by
  obtain ⟨inv, h0, h1⟩ := sane_inv h
  obtain ⟨⟨o, hx⟩, hall⟩ := steady_sound h0 h1 us hus
  simp only [steady, Bool.and_eq_true, List.all_eq_true] at h1
  have hb := h1.2 _ hb
  have split : construct ++ (us ++ [u]).flatMap Use.code = (construct ++ us.flatMap Use.code) ++ u.code := by simp
  unfold Life
  rw [split]
  obtain ⟨_, e1, ho1⟩ := hall _ hx
  cases e1
  refine ⟨(exec_append _ _ _ _).2 (Or.inl ⟨o, hx, (bad_sound hb ho1).1⟩), fun res hr => ?_⟩
  rcases (exec_append _ _ _ _).1 hr with ⟨o3, h3, h4⟩ | ⟨e', h3, _⟩
  · obtain ⟨_, e3, ho3⟩ := hall _ h3
    cases e3
    exact (bad_sound hb ho3).2 res h4
  · obtain ⟨_, e3, _⟩ := hall _ h3
    cases e3

/-- A class that cannot be made. -/
theorem construct_bad {cls : Cls} {cfg : Cfg} {e : Err} (h : bad e (an cls fuel cfg.env (0, 0) (.seq construct)) = true) (us : List Use) :
    Life cls cfg us (.error e) ∧ ∀ res, Life cls cfg us res → res = .error e := by
  obtain ⟨h1, h2⟩ := bad_sound h in_fresh
  refine ⟨(exec_append _ _ _ _).2 (Or.inr ⟨e, h1, rfl⟩), fun res hr => ?_⟩
  rcases (exec_append _ _ _ _).1 hr with ⟨o3, h3, _⟩ | ⟨e', h3, h4⟩
  · have := h2 _ h3; cases this
  · have := h2 _ h3; cases this; exact h4

end Soapy.Attr
