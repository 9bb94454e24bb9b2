/-
A static analysis of the programs of `Model/Prog.lean` and its soundness: from bounds on the attributes there are and from some of the conditions, the errors a piece of code can end with, and bounds on the attributes
after an error and after a good end.
-/
import Verif.Model.Prog
import Mathlib.Data.Nat.Bitwise
import Mathlib.Tactic.Common

namespace Soapy.Prog

set_option linter.unusedSimpArgs false
set_option linter.unusedSectionVars false

/-- Positions of attributes in a bit mask. -/
class Bits (A : Type) where
  bit : A → ℕ
  inj : ∀ a b : A, bit a = bit b → a = b

open Bits

variable {C A M G K D X U : Type}

/-- Bounds: attributes surely there, attributes possibly there. -/
abbrev Bd := ℕ × ℕ

/-- An object within bounds. -/
def In [Bits A] (s : Bd) (o : Obj A) : Prop := (∀ a : A, s.1.testBit (bit a) = true → o a = true) ∧ ∀ a : A, o a = true → s.2.testBit (bit a) = true

/-! What the kernel has to compute is written with the operations it is fast at. -/

/-- A bit. -/
def tb (x i : ℕ) : Bool := Nat.beq (Nat.land (Nat.shiftRight x i) 1) 1

theorem tb_eq (x i : ℕ) : tb x i = x.testBit i := by
  have h : Nat.land (Nat.shiftRight x i) 1 = (x.testBit i).toNat := by
    change (x >>> i) &&& 1 = _
    rw [Nat.and_one_is_mod, Nat.toNat_testBit, Nat.shiftRight_eq_div_pow]
  unfold tb
  rw [h]
  cases x.testBit i <;> rfl

/-- Switch a bit on. -/
def on (x i : ℕ) : ℕ := Nat.lor x (Nat.shiftLeft 1 i)

/-- Switch a bit off. -/
def off (x i : ℕ) : ℕ := bif tb x i then Nat.xor x (Nat.shiftLeft 1 i) else x

theorem shift_one (i : ℕ) : Nat.shiftLeft 1 i = 2 ^ i := by
  change 1 <<< i = _
  rw [Nat.shiftLeft_eq, one_mul]

theorem testBit_on (x i j : ℕ) : (on x i).testBit j = (x.testBit j || decide (i = j)) := by
  unfold on
  rw [shift_one]
  change (x ||| 2 ^ i).testBit j = _
  simp [Nat.testBit_or, Nat.testBit_two_pow]

theorem testBit_off (x i j : ℕ) : (off x i).testBit j = (x.testBit j && !decide (i = j)) := by
  unfold off
  rw [shift_one, tb_eq]
  change (bif x.testBit i then x ^^^ 2 ^ i else x).testBit j = _
  by_cases hij : i = j
  · subst hij
    by_cases h : x.testBit i = true <;> simp [h, Nat.testBit_xor]
  · by_cases h : x.testBit i = true <;> simp [h, hij, Nat.testBit_xor]

/-- `k x`, in a form in which the kernel works out `x` once. -/
def force {α : Type} (x : ℕ) (k : ℕ → α) : α := Nat.casesOn x (k 0) fun n => k (Nat.succ n)

theorem force_eq {α : Type} (x : ℕ) (k : ℕ → α) : force x k = k x := by cases x <;> rfl

/-- Least common bounds. -/
def join (s t : Bd) : Bd := (Nat.land s.1 t.1, Nat.lor s.2 t.2)

/-- `s` is within `t`. -/
def le (s t : Bd) : Bool := Nat.beq (Nat.land t.1 s.1) t.1 && Nat.beq (Nat.lor s.2 t.2) t.2

section
variable [Bits A] [DecidableEq A]

theorem In.mono {s t : Bd} (h : le s t = true) {o : Obj A} (ho : In s o) : In t o := by
  simp only [le, Bool.and_eq_true] at h
  have h : t.1 &&& s.1 = t.1 ∧ s.2 ||| t.2 = t.2 := ⟨Nat.eq_of_beq_eq_true h.1, Nat.eq_of_beq_eq_true h.2⟩
  refine ⟨fun a ha => ho.1 a ?_, fun a ha => ?_⟩
  · rw [← h.1, Nat.testBit_and, Bool.and_eq_true] at ha
    exact ha.2
  · rw [← h.2, Nat.testBit_or, ho.2 a ha, Bool.true_or]

theorem In.join_left {s t : Bd} {o : Obj A} (ho : In s o) : In (join s t) o :=
  ⟨fun a ha => ho.1 a (by change (s.1 &&& t.1).testBit _ = true at ha; simp only [Nat.testBit_and, Bool.and_eq_true] at ha; exact ha.1), fun a ha => by change (s.2 ||| t.2).testBit _ = true; simp [Nat.testBit_or, ho.2 a ha]⟩

theorem In.join_right {s t : Bd} {o : Obj A} (ho : In t o) : In (join s t) o :=
  ⟨fun a ha => ho.1 a (by change (s.1 &&& t.1).testBit _ = true at ha; simp only [Nat.testBit_and, Bool.and_eq_true] at ha; exact ha.2), fun a ha => by change (s.2 ||| t.2).testBit _ = true; simp [Nat.testBit_or, ho.2 a ha]⟩

theorem In.update_true {s : Bd} {o : Obj A} (ho : In s o) (a : A) : In (on s.1 (bit a), on s.2 (bit a)) (Function.update o a true) := by
  refine ⟨fun b hb => ?_, fun b hb => ?_⟩
  · by_cases h : b = a
    · simp [h]
    · rw [Function.update_of_ne h]
      have hne : bit a ≠ bit b := fun e => h (Bits.inj _ _ e).symm
      simp only [testBit_on, hne, decide_false, Bool.or_false] at hb
      exact ho.1 b hb
  · by_cases h : b = a
    · simp [h, testBit_on]
    · rw [Function.update_of_ne h] at hb
      simp [testBit_on, ho.2 b hb]

theorem In.update_false {s : Bd} {o : Obj A} (ho : In s o) (a : A) : In (off s.1 (bit a), off s.2 (bit a)) (Function.update o a false) := by
  refine ⟨fun b hb => ?_, fun b hb => ?_⟩
  · by_cases h : b = a
    · subst h; simp [testBit_off] at hb
    · rw [Function.update_of_ne h]
      simp only [testBit_off, Bool.and_eq_true] at hb
      exact ho.1 b hb.1
  · by_cases h : b = a
    · subst h; simp at hb
    · rw [Function.update_of_ne h] at hb
      have hne : bit a ≠ bit b := fun e => h (Bits.inj _ _ e).symm
      simp [testBit_off, ho.2 b hb, hne]

theorem In.noattr {s : Bd} {o : Obj A} (ho : In s o) {a : A} (h : o a = false) : In (s.1, off s.2 (bit a)) o := by
  refine ⟨ho.1, fun b hb => ?_⟩
  have hne : bit a ≠ bit b := fun e => by rw [Bits.inj _ _ e, hb] at h; simp at h
  simp [testBit_off, ho.2 b hb, hne]

theorem In.attr {s : Bd} {o : Obj A} (ho : In s o) {a : A} (h : o a = true) : In (on s.1 (bit a), s.2) o := by
  refine ⟨fun b hb => ?_, ho.2⟩
  simp only [testBit_on, Bool.or_eq_true, decide_eq_true_eq] at hb
  rcases hb with hb | hb
  · exact ho.1 b hb
  · rwa [← Bits.inj _ _ hb]

end

/-- Result of the analysis: possible errors, bounds on the attributes after an error if there can be one, and bounds if the code can end well.  `none`: not enough fuel, or no invariant found. -/
abbrev Ana (A M G X : Type) := Option (List (Err A M G X) × Option Bd × Option Bd)

/-- Join of two bounds. -/
def joinR : Option Bd → Option Bd → Option Bd
  | none, t => t
  | s, none => s
  | some s, some t => some (join s t)

/-- The same, worked out. -/
def joinK {α : Type} (s t : Option Bd) (k : Option Bd → α) : α := match s, t with
  | none, t => k t
  | s, none => k s
  | some s, some t => force (Nat.land s.1 t.1) fun l => force (Nat.lor s.2 t.2) fun h => k (some (l, h))

theorem joinK_eq {α : Type} (s t : Option Bd) (k : Option Bd → α) : joinK s t k = k (joinR s t) := by
  cases s <;> cases t <;> simp [joinK, joinR, force_eq, join]

theorem In.joinR_left [Bits A] [DecidableEq A] {s : Bd} {o : Obj A} (ho : In s o) (r : Option Bd) : ∃ t, joinR (some s) r = some t ∧ In t o := by
  cases r with
  | none => exact ⟨s, rfl, ho⟩
  | some t => exact ⟨_, rfl, ho.join_left⟩

theorem In.joinR_right [Bits A] [DecidableEq A] {s : Bd} {o : Obj A} (ho : In s o) (r : Option Bd) : ∃ t, joinR r (some s) = some t ∧ In t o := by
  cases r with
  | none => exact ⟨s, rfl, ho⟩
  | some t => exact ⟨_, rfl, ho.join_right⟩

/-- What is known of the conditions: which are known, and their values. -/
abbrev Know := ℕ × ℕ

/-- Values that agree with what is known. -/
def Fits [Bits D] (kn : Know) (env : Env D) : Prop := ∀ c : D, kn.1.testBit (bit c) = true → env c = kn.2.testBit (bit c)

/-- Knowledge from a list; earlier entries override. -/
def know [Bits D] : List (D × Bool) → Know
  | [] => (0, 0)
  | p :: r => (on (know r).1 (bit p.1), bif p.2 then on (know r).2 (bit p.1) else off (know r).2 (bit p.1))

/-- One more condition is known. -/
def learn1 {α : Type} [Bits D] (kn : Know) (p : D × Bool) (k : Know → α) : α :=
  force (on kn.1 (bit p.1)) fun a => force (bif p.2 then on kn.2 (bit p.1) else off kn.2 (bit p.1)) fun b => k (a, b)

/-- Arguments override, the first of equal ones first. -/
def learn {α : Type} [Bits D] (kn : Know) : List (D × Bool) → (Know → α) → α
  | [], k => k kn
  | p :: r, k => learn kn r fun kn' => learn1 kn' p k

variable [DecidableEq C] [DecidableEq A] [DecidableEq K] [DecidableEq D] [DecidableEq X] [Bits A] [Bits D]

theorem bind_cons {V : Type} (env : D → V) (p : D × V) (r : List (D × V)) (c : D) : bind env (p :: r) c = if p.1 = c then p.2 else bind env r c := by
  by_cases h : p.1 = c <;> simp [bind, h]

theorem fits_one {kn : Know} {env : Env D} (h : Fits kn env) (p : D × Bool) {env' : Env D} (he : ∀ c, env' c = if p.1 = c then p.2 else env c) :
    Fits (on kn.1 (bit p.1), bif p.2 then on kn.2 (bit p.1) else off kn.2 (bit p.1)) env' := by
  intro c hc
  rw [he]
  by_cases hpc : p.1 = c
  · subst hpc
    cases hp : p.2 <;> simp [testBit_on, testBit_off]
  · have hne : bit p.1 ≠ bit c := fun e => hpc (Bits.inj _ _ e)
    simp only [testBit_on, hne, decide_false, Bool.or_false] at hc
    rw [if_neg hpc, h c hc]
    cases hp : p.2 <;> simp [testBit_on, testBit_off, hne]

theorem learn_eq {α : Type} (kn : Know) (args : List (D × Bool)) : ∃ kn' : Know, (∀ k : Know → α, learn kn args k = k kn') ∧ ∀ env : Env D, Fits kn env → Fits kn' (bind env args) := by
  induction args with
  | nil => exact ⟨kn, fun _ => rfl, fun env h => h⟩
  | cons p r ih =>
    obtain ⟨kn', h1, h2⟩ := ih
    exact ⟨_, fun k => by simp only [learn, h1, learn1, force_eq], fun env h => fits_one (h2 env h) p fun c => bind_cons env p r c⟩

theorem fits_know {l : List (D × Bool)} {env : Env D} (h : ∀ p ∈ l, env p.1 = p.2) : Fits (know l) env := by
  induction l with
  | nil => intro c hc; simp [know] at hc
  | cons p r ih =>
    refine fits_one (ih fun q hq => h q (by simp [hq])) p fun c => ?_
    by_cases hpc : p.1 = c
    · subst hpc; simp [h p (by simp)]
    · simp [hpc]

/-- The analysis of everything less deep. -/
abbrev Sub (C A M G K D X : Type) := Know → Bd → Code C A M G K D X → Ana A M G X

/-- The rest of a list of statements. -/
def anRest (rec : Sub C A M G K D X) (kn : Know) (r : List (Instr C A M G K D X)) : Ana A M G X → Ana A M G X
  | none => none
  | some (e, x, none) => some (e, x, none)
  | some (e, x, some s') => match rec kn s' (.seq r) with
    | none => none
    | some (e', x', t) => joinK x x' fun y => some (e ++ e', y, t)

/-- An assignment. -/
def anAsg (rec : Sub C A M G K D X) (kn : Know) (s : Bd) (a : A) : Option M → Ana A M G X
  | none => force (on s.1 (bit a)) fun l => force (on s.2 (bit a)) fun h => some ([], none, some (l, h))
  | some m => rec kn s (.one (.call .self m [] []))

/-- A read. -/
def anRd (rec : Sub C A M G K D X) (kn : Know) (s : Bd) (a : A) : Option M → Ana A M G X
  | none => bif tb s.1 (bit a) then some ([], none, some s) else
      bif tb s.2 (bit a) then force (on s.1 (bit a)) fun l => some ([.attributeError a], some s, some (l, s.2)) else some ([.attributeError a], some s, none)
  | some m => rec kn s (.one (.call .self m [] []))

/-- A call. -/
def anCall (rec : Sub C A M G K D X) (kn : Know) (s : Bd) (args : List (D × Bool)) : Except (Err A M G X) (Method C A M G K D X) → Ana A M G X
  | .error e => some ([e], some s, none)
  | .ok x => learn kn x.dflt fun kn1 => learn kn1 args fun kn2 => rec kn2 s (.seq x.body)

/-- Two results. -/
def anTwo (p q : Ana A M G X) : Ana A M G X := match p with
  | none => none
  | some (e1, x1, r1) => match q with
    | none => none
    | some (e2, x2, r2) => joinK x1 x2 fun x => joinK r1 r2 fun r => some (e1 ++ e2, x, r)

/-- A call of one of several methods. -/
def anCalls (rec : Sub C A M G K D X) (kn : Know) (s : Bd) (args : List (D × Bool)) : List (Except (Err A M G X) (Method C A M G K D X)) → Ana A M G X
  | [] => none
  | x :: r => match r with
    | [] => anCall rec kn s args x
    | _ :: _ => anTwo (anCall rec kn s args x) (anCalls rec kn s args r)

/-- What a call can enter, for all the classes under consideration. -/
abbrev Look (C A M G K D X : Type) := Via C → M → List K → List (Except (Err A M G X) (Method C A M G K D X))

/-- `hasattr` -/
def anHas (rec : Sub C A M G K D X) (kn : Know) (s : Bd) (a : A) (t e : List (Instr C A M G K D X)) : Ana A M G X :=
  bif tb s.1 (bit a) then rec kn s (.seq t) else
  bif tb s.2 (bit a) then force (on s.1 (bit a)) fun l => force (off s.2 (bit a)) fun h => anTwo (rec kn (l, s.2) (.seq t)) (rec kn (s.1, h) (.seq e))
  else rec kn s (.seq e)

/-- A loop. -/
def anLoop (rec : Sub C A M G K D X) (kn : Know) (s : Bd) (b : List (Instr C A M G K D X)) : Ana A M G X → Ana A M G X
  | none => none
  | some (e1, x1, none) => some (e1, x1, some s)
  | some (e1, x1, some s1) => bif le s1 s then some (e1, x1, some s) else force (Nat.land s.1 s1.1) fun l => force (Nat.lor s.2 s1.2) fun h => match rec kn (l, h) (.seq b) with
    | none => none
    | some (e2, x2, none) => some (e2, x2, some (l, h))
    | some (e2, x2, some s2) => bif le s2 (l, h) then some (e2, x2, some (l, h)) else none

/-- A loop with at least one round. -/
def anLoop1 (rec : Sub C A M G K D X) (kn : Know) (s : Bd) (b : List (Instr C A M G K D X)) : Ana A M G X → Ana A M G X
  | none => none
  | some (e1, x1, none) => some (e1, x1, none)
  | some (e1, x1, some s1) => bif le s1 s then some (e1, x1, some s1) else force (Nat.land s.1 s1.1) fun l => force (Nat.lor s.2 s1.2) fun h => match rec kn (l, h) (.seq b) with
    | none => none
    | some (e2, x2, none) => some (e2, x2, none)
    | some (e2, x2, some s2) => bif le s2 (l, h) then some (e2, x2, some s2) else none

/-- `try` -/
def anTry (rec : Sub C A M G K D X) (kn : Know) (k : Catch X) (h : List (Instr C A M G K D X)) : Ana A M G X → Ana A M G X
  | none => none
  | some (e1, none, r1) => some (e1, none, r1)
  | some (e1, some x1, r1) => bif e1.any (catches k) then match rec kn x1 (.seq h) with
      | none => none
      | some (e2, x2, r2) => joinK (some x1) x2 fun x => joinK r1 r2 fun r => some (e1.filter (fun e => !catches k e) ++ e2, x, r)
    else some (e1, some x1, r1)

/-- One step of the analysis of a statement. -/
def anOne (src : Source C A M G K D X) (look : Look C A M G K D X) (rec : Sub C A M G K D X) (kn : Know) (s : Bd) : Instr C A M G K D X → Ana A M G X
  | .asg a => anAsg rec kn s a (src.setter a)
  | .rd a => anRd rec kn s a (src.getter a)
  | .del a => force (off s.1 (bit a)) fun l => force (off s.2 (bit a)) fun h => some ([], none, some (l, h))
  | .glob g => bif src.defined g then some ([], none, some s) else some ([.nameError g], some s, none)
  | .call w m kw args => anCalls rec kn s args (look w m kw)
  | .ifc c t e => bif tb kn.1 (bit c) then (bif tb kn.2 (bit c) then rec kn s (.seq t) else rec kn s (.seq e)) else anTwo (rec kn s (.seq t)) (rec kn s (.seq e))
  | .ifa t e => anTwo (rec kn s (.seq t)) (rec kn s (.seq e))
  | .has a t e => anHas rec kn s a t e
  | .loop b => anLoop rec kn s b (rec kn s (.seq b))
  | .loop1 b => anLoop1 rec kn s b (rec kn s (.seq b))
  | .attempt k b h => anTry rec kn k h (rec kn s (.seq b))
  | .raise x => some ([.other x], some s, none)

/-- One step of the analysis. -/
def anStep (src : Source C A M G K D X) (look : Look C A M G K D X) (rec : Sub C A M G K D X) (kn : Know) (s : Bd) : Code C A M G K D X → Ana A M G X
  | .seq l => match l with
    | [] => some ([], none, some s)
    | i :: r => anRest rec kn r (rec kn s (.one i))
  | .one i => anOne src look rec kn s i

/-- The analysis, for code nested less deep than `n`. -/
def an (src : Source C A M G K D X) (look : Look C A M G K D X) (n : ℕ) : Know → Bd → Code C A M G K D X → Ana A M G X := Nat.rec (fun _ _ _ => none) (fun _ rec => anStep src look rec) n

theorem an_zero (src : Source C A M G K D X) (look : Look C A M G K D X) (kn : Know) (s : Bd) (c : Code C A M G K D X) : an src look 0 kn s c = none := rfl

theorem an_succ (src : Source C A M G K D X) (look : Look C A M G K D X) (n : ℕ) (kn : Know) (s : Bd) (c : Code C A M G K D X) : an src look (n + 1) kn s c = anStep src look (an src look n) kn s c := rfl

/-- The result of an execution agrees with the result of the analysis. -/
def Agrees (p : List (Err A M G X) × Option Bd × Option Bd) : Res A M G X → Prop
  | .ok o => ∃ s, p.2.2 = some s ∧ In s o
  | .err e o => e ∈ p.1 ∧ ∃ s, p.2.1 = some s ∧ In s o

theorem Agrees.join {e1 e2 : List (Err A M G X)} {x1 x2 r1 r2 : Option Bd} {res : Res A M G X} (h : Agrees (e1, x1, r1) res ∨ Agrees (e2, x2, r2) res) : Agrees (e1 ++ e2, joinR x1 x2, joinR r1 r2) res := by
  cases res with
  | err e o =>
    rcases h with ⟨he, s, hs, ho⟩ | ⟨he, s, hs, ho⟩ <;> simp only at hs he <;> subst hs
    · exact ⟨List.mem_append_left _ he, ho.joinR_left _⟩
    · exact ⟨List.mem_append_right _ he, ho.joinR_right _⟩
  | ok o =>
    rcases h with ⟨s, hs, ho⟩ | ⟨s, hs, ho⟩ <;> simp only at hs <;> subst hs
    · exact ho.joinR_left _
    · exact ho.joinR_right _

theorem exec_append {src : Source C A M G K D X} {cs : List C} {env : Env D} (r : List (Instr C A M G K D X)) : ∀ (l : List (Instr C A M G K D X)) (o : Obj A) (res : Res A M G X),
    Exec src cs env o (.seq (l ++ r)) res ↔ (∃ o', Exec src cs env o (.seq l) (.ok o') ∧ Exec src cs env o' (.seq r) res) ∨ ∃ e o', Exec src cs env o (.seq l) (.err e o') ∧ res = .err e o' := by
  intro l
  induction l with
  | nil =>
    intro o res
    constructor
    · intro h; exact Or.inl ⟨o, .nil _ _, h⟩
    · rintro (⟨o', h1, h2⟩ | ⟨e, o', h1, _⟩)
      · cases h1; exact h2
      · cases h1
  | cons i l ih =>
    intro o res
    constructor
    · intro h
      cases h with
      | cons_ok _ _ _ _ o' _ h1 h2 =>
        rcases (ih o' res).1 h2 with ⟨o'', h3, h4⟩ | ⟨e, o'', h3, h4⟩
        · exact Or.inl ⟨o'', .cons_ok _ _ _ _ _ _ h1 h3, h4⟩
        · exact Or.inr ⟨e, o'', .cons_ok _ _ _ _ _ _ h1 h3, h4⟩
      | cons_err _ _ _ _ e o' h1 => exact Or.inr ⟨e, o', .cons_err _ _ _ _ _ _ h1, rfl⟩
    · rintro (⟨o', h1, h2⟩ | ⟨e, o', h1, h2⟩)
      · cases h1 with
        | cons_ok _ _ _ _ o'' _ h3 h4 => exact .cons_ok _ _ _ _ _ _ h3 ((ih o'' res).2 (Or.inl ⟨o', h4, h2⟩))
      · subst h2
        cases h1 with
        | cons_ok _ _ _ _ o'' _ h3 h4 => exact .cons_ok _ _ _ _ _ _ h3 ((ih o'' _).2 (Or.inr ⟨e, o', h4, rfl⟩))
        | cons_err _ _ _ _ _ _ h3 => exact .cons_err _ _ _ _ _ _ h3

theorem loop_sound {src : Source C A M G K D X} {cs : List C} {env : Env D} {b : List (Instr C A M G K D X)} {inv : Bd} {errs : List (Err A M G X)} {x : Option Bd} {r : Option Bd}
    (hb : ∀ o, In inv o → ∀ res, Exec src cs env o (.seq b) res → Agrees (errs, x, r) res) (hr : ∀ s, r = some s → le s inv = true) :
    ∀ o, In inv o → ∀ res, Exec src cs env o (.one (.loop b)) res → Agrees (errs, x, some inv) res := by
  intro o ho res h
  generalize hc : Code.one (Instr.loop b) = c at h
  induction h with
  | loop_end env o b' => exact ⟨inv, rfl, ho⟩
  | loop_err env o b' e o' h ih =>
    cases hc
    exact hb o ho _ h
  | loop_more env o b' o' res h1 h2 ih1 ih2 =>
    cases hc
    obtain ⟨s, hs, hi⟩ := hb o ho _ h1
    simp only at hs
    exact ih2 hb (hi.mono (hr s hs)) rfl
  | _ => cases hc

theorem loop_sound1 {src : Source C A M G K D X} {cs : List C} {env : Env D} {b : List (Instr C A M G K D X)} {inv : Bd} {errs : List (Err A M G X)} {x : Option Bd} {r : Option Bd}
    (hb : ∀ o, In inv o → ∀ res, Exec src cs env o (.seq b) res → Agrees (errs, x, r) res) (hr : ∀ s, r = some s → le s inv = true) :
    ∀ o, In inv o → ∀ res, Exec src cs env o (.one (.loop1 b)) res → Agrees (errs, x, r) res := by
  have go : ∀ o, (∃ s, r = some s ∧ In s o) → ∀ res, Exec src cs env o (.one (.loop b)) res → Agrees (errs, x, r) res := by
    intro o ho res h
    generalize hc : Code.one (Instr.loop b) = c at h
    induction h with
    | loop_end env o b' => exact ho
    | loop_err env o b' e o' h ih =>
      cases hc
      obtain ⟨s, hs, hi⟩ := ho
      exact hb o (hi.mono (hr s hs)) _ h
    | loop_more env o b' o' res h1 h2 ih1 ih2 =>
      cases hc
      obtain ⟨s, hs, hi⟩ := ho
      exact ih2 hb (hb o (hi.mono (hr s hs)) _ h1) rfl
    | _ => cases hc
  intro o ho res h
  cases h with
  | loop1 _ _ _ _ h =>
    rcases (exec_append _ _ _ _).1 h with ⟨o', h1, h2⟩ | ⟨e, o', h1, h2⟩
    · refine go o' (hb o ho _ h1) res ?_
      cases h2 with
      | cons_ok _ _ _ _ o'' _ h3 h4 => cases h4; exact h3
      | cons_err _ _ _ _ e o'' h3 => exact h3
    · subst h2
      exact hb o ho _ h1

theorem anTwo_some {p q : Ana A M G X} {t : List (Err A M G X) × Option Bd × Option Bd} (h : anTwo p q = some t) : ∃ t1 t2, p = some t1 ∧ q = some t2 ∧ ∀ res : Res A M G X, Agrees t1 res ∨ Agrees t2 res → Agrees t res := by
  unfold anTwo at h
  split at h
  · simp at h
  · split at h
    · simp at h
    · simp only [joinK_eq, Option.some.injEq] at h; subst h
      exact ⟨_, _, rfl, rfl, fun res hr => Agrees.join hr⟩

theorem anCalls_mem {rec : Sub C A M G K D X} {kn : Know} {s : Bd} {args : List (D × Bool)} {x : Except (Err A M G X) (Method C A M G K D X)} : ∀ {l : List (Except (Err A M G X) (Method C A M G K D X))}
    {p : List (Err A M G X) × Option Bd × Option Bd}, anCalls rec kn s args l = some p → x ∈ l → ∃ q, anCall rec kn s args x = some q ∧ ∀ res : Res A M G X, Agrees q res → Agrees p res := by
  intro l
  induction l with
  | nil => intro p _ hx; simp at hx
  | cons y r ih =>
    intro p h hx
    cases r with
    | nil =>
      simp only [List.mem_singleton] at hx; subst hx
      exact ⟨p, h, fun _ h => h⟩
    | cons z r' =>
      obtain ⟨t1, t2, h1, h2, h3⟩ := anTwo_some h
      rcases List.mem_cons.1 hx with rfl | hx
      · exact ⟨t1, h1, fun res hr => h3 res (Or.inl hr)⟩
      · obtain ⟨q, hq, hqr⟩ := ih h2 hx
        exact ⟨q, hq, fun res hr => h3 res (Or.inr (hqr res hr))⟩

/-- Every execution ends as the analysis says. -/
theorem an_sound (src : Source C A M G K D X) (cs : List C) (look : Look C A M G K D X) (hl : ∀ w m kw, enter src cs w m kw ∈ look w m kw) : ∀ (n : ℕ) (kn : Know) (s : Bd) (c : Code C A M G K D X) (p : List (Err A M G X) × Option Bd × Option Bd), an src look n kn s c = some p →
    ∀ env, Fits kn env → ∀ o, In s o → ∀ res, Exec src cs env o c res → Agrees p res := by
  intro n
  induction n with
  | zero => intro kn s c p h; simp [an_zero] at h
  | succ n ih =>
    intro kn s c p h env hf o ho res hx
    match c with
    | .seq [] =>
      simp only [an_succ, anStep, anOne, Option.some.injEq] at h; subst h
      cases hx; exact ⟨s, rfl, ho⟩
    | .seq (i :: r) =>
      simp only [an_succ, anStep, anOne, anRest, anAsg, anRd, anCall, anTwo, anHas, anLoop, anLoop1, anTry, force_eq, joinK_eq, tb_eq, cond_eq_ite] at h
      split at h
      · simp at h
      · rename_i e x h1
        simp only [Option.some.injEq] at h; subst h
        cases hx with
        | cons_ok _ _ _ _ o' _ hx1 hx2 => obtain ⟨t, ht, _⟩ := ih _ _ _ _ h1 env hf o ho _ hx1; simp at ht
        | cons_err _ _ _ _ e o' hx1 => exact ih _ _ _ _ h1 env hf o ho _ hx1
      · rename_i e x s' h1
        split at h
        · simp at h
        · rename_i e' x' t h2
          simp only [Option.some.injEq] at h; subst h
          cases hx with
          | cons_ok _ _ _ _ o' _ hx1 hx2 =>
            obtain ⟨u, hu, ho'⟩ := ih _ _ _ _ h1 env hf o ho _ hx1
            simp only [Option.some.injEq] at hu; subst hu
            have := ih _ _ _ _ h2 env hf o' ho' _ hx2
            cases res with
            | ok o'' => exact this
            | err e'' o'' =>
              obtain ⟨he, s2, hs2, hi⟩ := this
              simp only at hs2 he; subst hs2
              exact ⟨List.mem_append_right _ he, hi.joinR_right _⟩
          | cons_err _ _ _ _ e o' hx1 =>
            obtain ⟨he, s2, hs2, hi⟩ := ih _ _ _ _ h1 env hf o ho _ hx1
            simp only at hs2 he; subst hs2
            exact ⟨List.mem_append_left _ he, hi.joinR_left _⟩
    | .one (.asg a) =>
      simp only [an_succ, anStep, anOne, anRest, anAsg, anRd, anCall, anTwo, anHas, anLoop, anLoop1, anTry, force_eq, joinK_eq, tb_eq, cond_eq_ite] at h
      split at h
      · rename_i hs
        simp only [Option.some.injEq] at h; subst h
        cases hx with
        | asg _ _ _ h' => exact ⟨_, rfl, ho.update_true a⟩
        | asg_prop _ _ _ m _ h' hx' => simp [hs] at h'
      · rename_i m hs
        cases hx with
        | asg _ _ _ h' => simp [hs] at h'
        | asg_prop _ _ _ m' _ h' hx' =>
          rw [hs, Option.some.injEq] at h'; subst h'
          exact ih _ _ _ _ h env hf o ho _ hx'
    | .one (.rd a) =>
      simp only [an_succ, anStep, anOne, anRest, anAsg, anRd, anCall, anTwo, anHas, anLoop, anLoop1, anTry, force_eq, joinK_eq, tb_eq, cond_eq_ite] at h
      split at h
      · rename_i hs
        split at h
        · rename_i hb
          simp only [Option.some.injEq] at h; subst h
          cases hx with
          | rd_ok _ _ _ h1 h2 => exact ⟨s, rfl, ho⟩
          | rd_err _ _ _ h1 h2 => rw [ho.1 a hb] at h2; simp at h2
          | rd_prop _ _ _ m _ h' hx' => simp [hs] at h'
        · split at h
          · rename_i hb
            simp only [Option.some.injEq] at h; subst h
            cases hx with
            | rd_ok _ _ _ h1 h2 => exact ⟨_, rfl, ho.attr h2⟩
            | rd_err _ _ _ h1 h2 => exact ⟨by simp, s, rfl, ho⟩
            | rd_prop _ _ _ m _ h' hx' => simp [hs] at h'
          · rename_i hb
            simp only [Option.some.injEq] at h; subst h
            cases hx with
            | rd_ok _ _ _ h1 h2 => exact absurd (ho.2 a h2) hb
            | rd_err _ _ _ h1 h2 => exact ⟨by simp, s, rfl, ho⟩
            | rd_prop _ _ _ m _ h' hx' => simp [hs] at h'
      · rename_i m hs
        cases hx with
        | rd_ok _ _ _ h1 h2 => simp [hs] at h1
        | rd_err _ _ _ h1 h2 => simp [hs] at h1
        | rd_prop _ _ _ m' _ h' hx' =>
          rw [hs, Option.some.injEq] at h'; subst h'
          exact ih _ _ _ _ h env hf o ho _ hx'
    | .one (.del a) =>
      simp only [an_succ, anStep, anOne, force_eq, Option.some.injEq] at h; subst h
      cases hx; exact ⟨_, rfl, ho.update_false a⟩
    | .one (.glob g) =>
      simp only [an_succ, anStep, anOne, anRest, anAsg, anRd, anCall, anTwo, anHas, anLoop, anLoop1, anTry, force_eq, joinK_eq, tb_eq, cond_eq_ite] at h
      split at h <;> rename_i hg <;> simp only [Option.some.injEq] at h <;> subst h <;> cases hx with
      | glob_ok _ _ _ h' => first | exact ⟨s, rfl, ho⟩ | (rw [h'] at hg; simp at hg)
      | glob_err _ _ _ h' => first | (rw [h'] at hg; simp at hg; done) | exact ⟨by simp, s, rfl, ho⟩
    | .one (.call w m kw args) =>
      simp only [an_succ, anStep, anOne] at h
      obtain ⟨q, hq, hqp⟩ := anCalls_mem h (hl w m kw)
      refine hqp _ ?_
      clear h hqp
      cases hx with
      | call_bad _ _ _ _ _ _ e' h' =>
        rw [h'] at hq
        simp only [anCall, Option.some.injEq] at hq; subst hq
        exact ⟨by simp, s, rfl, ho⟩
      | call _ _ _ _ _ _ x _ h' hx' =>
        rw [h'] at hq
        obtain ⟨kn1, e1, f1⟩ := learn_eq (α := Ana A M G X) kn x.dflt
        obtain ⟨kn2, e2, f2⟩ := learn_eq (α := Ana A M G X) kn1 args
        rw [anCall, e1, e2] at hq
        exact ih _ _ _ _ hq _ (f2 _ (f1 _ hf)) o ho _ hx'
    | .one (.ifc c t e) =>
      simp only [an_succ, anStep, anOne, anRest, anAsg, anRd, anCall, anTwo, anHas, anLoop, anLoop1, anTry, force_eq, joinK_eq, tb_eq, cond_eq_ite] at h
      cases hx with
      | ifc _ _ _ _ _ _ hx' =>
        split at h
        · rename_i hk
          rw [hf c hk] at hx'
          split at h <;> rename_i hv <;> simp only [hv] at hx' <;> exact ih _ _ _ _ h env hf o ho _ hx'
        · split at h
          · simp at h
          · rename_i e1 x1 r1 h1
            split at h
            · simp at h
            · rename_i e2 x2 r2 h2
              simp only [Option.some.injEq] at h; subst h
              apply Agrees.join
              cases hc : env c with
              | true => rw [hc] at hx'; exact Or.inl (ih _ _ _ _ h1 env hf o ho _ hx')
              | false => rw [hc] at hx'; exact Or.inr (ih _ _ _ _ h2 env hf o ho _ hx')
    | .one (.ifa t e) =>
      simp only [an_succ, anStep, anOne, anRest, anAsg, anRd, anCall, anTwo, anHas, anLoop, anLoop1, anTry, force_eq, joinK_eq, tb_eq, cond_eq_ite] at h
      split at h
      · simp at h
      · rename_i e1 x1 r1 h1
        split at h
        · simp at h
        · rename_i e2 x2 r2 h2
          simp only [Option.some.injEq] at h; subst h
          apply Agrees.join
          cases hx with
          | ifa_true _ _ _ _ _ hx' => exact Or.inl (ih _ _ _ _ h1 env hf o ho _ hx')
          | ifa_false _ _ _ _ _ hx' => exact Or.inr (ih _ _ _ _ h2 env hf o ho _ hx')
    | .one (.has a t e) =>
      simp only [an_succ, anStep, anOne, anRest, anAsg, anRd, anCall, anTwo, anHas, anLoop, anLoop1, anTry, force_eq, joinK_eq, tb_eq, cond_eq_ite] at h
      cases hx with
      | has _ _ _ _ _ _ hx' =>
        split at h
        · rename_i hb
          rw [ho.1 a hb] at hx'
          exact ih _ _ _ _ h env hf o ho _ hx'
        · split at h
          · split at h
            · simp at h
            · rename_i e1 x1 r1 h1
              split at h
              · simp at h
              · rename_i e2 x2 r2 h2
                simp only [Option.some.injEq] at h; subst h
                apply Agrees.join
                cases hc : o a with
                | true => rw [hc] at hx'; exact Or.inl (ih _ _ _ _ h1 env hf o (ho.attr hc) _ hx')
                | false => rw [hc] at hx'; exact Or.inr (ih _ _ _ _ h2 env hf o (ho.noattr hc) _ hx')
          · rename_i hb
            cases hc : o a with
            | true => exact absurd (ho.2 a hc) hb
            | false => rw [hc] at hx'; exact ih _ _ _ _ h env hf o ho _ hx'
    | .one (.loop b) =>
      simp only [an_succ, anStep, anOne, anRest, anAsg, anRd, anCall, anTwo, anHas, anLoop, anLoop1, anTry, force_eq, joinK_eq, tb_eq, cond_eq_ite] at h
      split at h
      · simp at h
      · rename_i e1 x1 h1
        simp only [Option.some.injEq] at h; subst h
        exact loop_sound (fun o' ho' res' hx' => ih _ _ _ _ h1 env hf o' ho' _ hx') (by simp) o ho res hx
      · rename_i e1 x1 s1 h1
        split at h
        · rename_i hle
          simp only [Option.some.injEq] at h; subst h
          exact loop_sound (fun o' ho' res' hx' => ih _ _ _ _ h1 env hf o' ho' _ hx') (by simpa using hle) o ho res hx
        · have hin : In (join s s1) o := ho.join_left (t := s1)
          split at h
          · simp at h
          · rename_i e2 x2 h2
            simp only [Option.some.injEq] at h; subst h
            exact loop_sound (fun o' ho' res' hx' => ih _ _ _ _ h2 env hf o' ho' _ hx') (by simp) o hin res hx
          · rename_i e2 x2 s2 h2
            split at h
            · rename_i hle
              simp only [Option.some.injEq] at h; subst h
              exact loop_sound (fun o' ho' res' hx' => ih _ _ _ _ h2 env hf o' ho' _ hx') (by simpa using hle) o hin res hx
            · simp at h
    | .one (.loop1 b) =>
      simp only [an_succ, anStep, anOne, anRest, anAsg, anRd, anCall, anTwo, anHas, anLoop, anLoop1, anTry, force_eq, joinK_eq, tb_eq, cond_eq_ite] at h
      split at h
      · simp at h
      · rename_i e1 x1 h1
        simp only [Option.some.injEq] at h; subst h
        exact loop_sound1 (fun o' ho' res' hx' => ih _ _ _ _ h1 env hf o' ho' _ hx') (by simp) o ho res hx
      · rename_i e1 x1 s1 h1
        split at h
        · rename_i hle
          simp only [Option.some.injEq] at h; subst h
          exact loop_sound1 (fun o' ho' res' hx' => ih _ _ _ _ h1 env hf o' ho' _ hx') (by simpa using hle) o ho res hx
        · have hin : In (join s s1) o := ho.join_left (t := s1)
          split at h
          · simp at h
          · rename_i e2 x2 h2
            simp only [Option.some.injEq] at h; subst h
            exact loop_sound1 (fun o' ho' res' hx' => ih _ _ _ _ h2 env hf o' ho' _ hx') (by simp) o hin res hx
          · rename_i e2 x2 s2 h2
            split at h
            · rename_i hle
              simp only [Option.some.injEq] at h; subst h
              exact loop_sound1 (fun o' ho' res' hx' => ih _ _ _ _ h2 env hf o' ho' _ hx') (by simpa using hle) o hin res hx
            · simp at h
    | .one (.attempt k b hd) =>
      simp only [an_succ, anStep, anOne, anRest, anAsg, anRd, anCall, anTwo, anHas, anLoop, anLoop1, anTry, force_eq, joinK_eq, tb_eq, cond_eq_ite] at h
      split at h
      · simp at h
      · rename_i e1 r1 h1
        simp only [Option.some.injEq] at h; subst h
        cases hx with
        | attempt_ok _ _ _ _ _ o' hx' => exact ih _ _ _ _ h1 env hf o ho _ hx'
        | attempt_err _ _ _ _ _ e o' hx' hc => exact ih _ _ _ _ h1 env hf o ho _ hx'
        | attempt_catch _ _ _ _ _ e o' _ hx' hc hx2 => obtain ⟨_, _, hs, _⟩ := ih _ _ _ _ h1 env hf o ho _ hx'; simp at hs
      · rename_i e1 x1 r1 h1
        split at h
        · split at h
          · simp at h
          · rename_i e2 x2 r2 h2
            simp only [Option.some.injEq] at h; subst h
            cases hx with
            | attempt_ok _ _ _ _ _ o' hx' =>
              obtain ⟨t, ht, hi⟩ := ih _ _ _ _ h1 env hf o ho _ hx'
              simp only at ht; subst ht
              exact hi.joinR_left _
            | attempt_err _ _ _ _ _ e o' hx' hc =>
              obtain ⟨he, t, ht, hi⟩ := ih _ _ _ _ h1 env hf o ho _ hx'
              simp only [Option.some.injEq] at ht he; subst ht
              exact ⟨List.mem_append_left _ (by simp [he, hc]), hi.joinR_left _⟩
            | attempt_catch _ _ _ _ _ e o' _ hx' hc hx2 =>
              obtain ⟨he, t, ht, hi⟩ := ih _ _ _ _ h1 env hf o ho _ hx'
              simp only [Option.some.injEq] at ht; subst ht
              have := ih _ _ _ _ h2 env hf o' hi _ hx2
              cases res with
              | ok o'' =>
                obtain ⟨t, ht, hi⟩ := this
                simp only at ht; subst ht
                exact hi.joinR_right _
              | err e'' o'' =>
                obtain ⟨he, t, ht, hi⟩ := this
                simp only at ht he; subst ht
                exact ⟨List.mem_append_right _ he, hi.joinR_right (some x1)⟩
        · rename_i hn
          simp only [Option.some.injEq] at h; subst h
          cases hx with
          | attempt_ok _ _ _ _ _ o' hx' => exact ih _ _ _ _ h1 env hf o ho _ hx'
          | attempt_err _ _ _ _ _ e o' hx' hc => exact ih _ _ _ _ h1 env hf o ho _ hx'
          | attempt_catch _ _ _ _ _ e o' _ hx' hc hx2 =>
            obtain ⟨he, _⟩ := ih _ _ _ _ h1 env hf o ho _ hx'
            exact absurd (List.any_eq_true.2 ⟨e, he, hc⟩) hn
    | .one (.raise x) =>
      simp only [an_succ, anStep, anOne, Option.some.injEq] at h; subst h
      cases hx; exact ⟨by simp, s, rfl, ho⟩

/-- Code the analysis answers for has an execution. -/
theorem an_exec (src : Source C A M G K D X) (cs : List C) (look : Look C A M G K D X) (hl : ∀ w m kw, enter src cs w m kw ∈ look w m kw) : ∀ (n : ℕ) (kn : Know) (s : Bd) (c : Code C A M G K D X) (p : List (Err A M G X) × Option Bd × Option Bd), an src look n kn s c = some p →
    ∀ env, Fits kn env → ∀ o, In s o → ∃ res, Exec src cs env o c res := by
  intro n
  induction n with
  | zero => intro kn s c p h; simp [an_zero] at h
  | succ n ih =>
    intro kn s c p h env hf o ho
    match c with
    | .seq [] => exact ⟨_, .nil _ _⟩
    | .seq (i :: r) =>
      simp only [an_succ, anStep, anOne, anRest, anAsg, anRd, anCall, anTwo, anHas, anLoop, anLoop1, anTry, force_eq, joinK_eq, tb_eq, cond_eq_ite] at h
      split at h
      · simp at h
      · rename_i e x h1
        obtain ⟨res, hx⟩ := ih _ _ _ _ h1 env hf o ho
        cases res with
        | err e o' => exact ⟨_, .cons_err _ _ _ _ _ _ hx⟩
        | ok o' => obtain ⟨t, ht, _⟩ := an_sound src cs look hl _ _ _ _ _ h1 env hf o ho _ hx; simp at ht
      · rename_i e x s' h1
        split at h
        · simp at h
        · rename_i e' x' t h2
          obtain ⟨res, hx⟩ := ih _ _ _ _ h1 env hf o ho
          cases res with
          | err e o' => exact ⟨_, .cons_err _ _ _ _ _ _ hx⟩
          | ok o' =>
            obtain ⟨u, hu, ho'⟩ := an_sound src cs look hl _ _ _ _ _ h1 env hf o ho _ hx
            simp only [Option.some.injEq] at hu; subst hu
            obtain ⟨res', hx'⟩ := ih _ _ _ _ h2 env hf o' ho'
            exact ⟨_, .cons_ok _ _ _ _ _ _ hx hx'⟩
    | .one (.asg a) =>
      simp only [an_succ, anStep, anOne, anRest, anAsg, anRd, anCall, anTwo, anHas, anLoop, anLoop1, anTry, force_eq, joinK_eq, tb_eq, cond_eq_ite] at h
      split at h
      · rename_i hs; exact ⟨_, .asg _ _ _ hs⟩
      · rename_i m hs
        obtain ⟨res, hx⟩ := ih _ _ _ _ h env hf o ho
        exact ⟨_, .asg_prop _ _ _ _ _ hs hx⟩
    | .one (.rd a) =>
      simp only [an_succ, anStep, anOne, anRest, anAsg, anRd, anCall, anTwo, anHas, anLoop, anLoop1, anTry, force_eq, joinK_eq, tb_eq, cond_eq_ite] at h
      split at h
      · rename_i hs
        cases hoa : o a with
        | true => exact ⟨_, .rd_ok _ _ _ hs hoa⟩
        | false => exact ⟨_, .rd_err _ _ _ hs hoa⟩
      · rename_i m hs
        obtain ⟨res, hx⟩ := ih _ _ _ _ h env hf o ho
        exact ⟨_, .rd_prop _ _ _ _ _ hs hx⟩
    | .one (.del a) => exact ⟨_, .del _ _ _⟩
    | .one (.glob g) =>
      cases hg : src.defined g with
      | true => exact ⟨_, .glob_ok _ _ _ hg⟩
      | false => exact ⟨_, .glob_err _ _ _ hg⟩
    | .one (.call w m kw args) =>
      simp only [an_succ, anStep, anOne] at h
      obtain ⟨q, hq, _⟩ := anCalls_mem h (hl w m kw)
      match he : enter src cs w m kw with
      | .error e => exact ⟨_, .call_bad _ _ _ _ _ _ _ he⟩
      | .ok x =>
        rw [he] at hq
        obtain ⟨kn1, e1, f1⟩ := learn_eq (α := Ana A M G X) kn x.dflt
        obtain ⟨kn2, e2, f2⟩ := learn_eq (α := Ana A M G X) kn1 args
        rw [anCall, e1, e2] at hq
        obtain ⟨res, hx⟩ := ih _ _ _ _ hq _ (f2 _ (f1 _ hf)) o ho
        exact ⟨_, .call _ _ _ _ _ _ _ _ he hx⟩
    | .one (.ifc c t e) =>
      simp only [an_succ, anStep, anOne, anRest, anAsg, anRd, anCall, anTwo, anHas, anLoop, anLoop1, anTry, force_eq, joinK_eq, tb_eq, cond_eq_ite] at h
      have key : ∃ res, Exec src cs env o (.seq (if env c then t else e)) res := by
        split at h
        · rename_i hk
          rw [hf c hk]
          split at h <;> rename_i hv <;> simp only [hv] <;> exact ih _ _ _ _ h env hf o ho
        · split at h
          · simp at h
          · rename_i e1 x1 r1 h1
            split at h
            · simp at h
            · rename_i e2 x2 r2 h2
              cases hc : env c with
              | true => exact ih _ _ _ _ h1 env hf o ho
              | false => exact ih _ _ _ _ h2 env hf o ho
      obtain ⟨res, hx⟩ := key
      exact ⟨_, .ifc _ _ _ _ _ _ hx⟩
    | .one (.ifa t e) =>
      simp only [an_succ, anStep, anOne, anRest, anAsg, anRd, anCall, anTwo, anHas, anLoop, anLoop1, anTry, force_eq, joinK_eq, tb_eq, cond_eq_ite] at h
      split at h
      · simp at h
      · rename_i e1 x1 r1 h1
        obtain ⟨res, hx⟩ := ih _ _ _ _ h1 env hf o ho
        exact ⟨_, .ifa_true _ _ _ _ _ hx⟩
    | .one (.has a t e) =>
      simp only [an_succ, anStep, anOne, anRest, anAsg, anRd, anCall, anTwo, anHas, anLoop, anLoop1, anTry, force_eq, joinK_eq, tb_eq, cond_eq_ite] at h
      have key : ∃ res, Exec src cs env o (.seq (if o a then t else e)) res := by
        split at h
        · rename_i hb
          rw [ho.1 a hb]
          exact ih _ _ _ _ h env hf o ho
        · split at h
          · split at h
            · simp at h
            · rename_i e1 x1 r1 h1
              split at h
              · simp at h
              · rename_i e2 x2 r2 h2
                cases hc : o a with
                | true => exact ih _ _ _ _ h1 env hf o (ho.attr hc)
                | false => exact ih _ _ _ _ h2 env hf o (ho.noattr hc)
          · rename_i hb
            cases hc : o a with
            | true => exact absurd (ho.2 a hc) hb
            | false => exact ih _ _ _ _ h env hf o ho
      obtain ⟨res, hx⟩ := key
      exact ⟨_, .has _ _ _ _ _ _ hx⟩
    | .one (.loop b) => exact ⟨_, .loop_end _ _ _⟩
    | .one (.loop1 b) =>
      simp only [an_succ, anStep, anOne, anRest, anAsg, anRd, anCall, anTwo, anHas, anLoop, anLoop1, anTry, force_eq, joinK_eq, tb_eq, cond_eq_ite] at h
      have key : ∃ res, Exec src cs env o (.seq b) res := by
        split at h
        · simp at h
        · rename_i e1 x1 h1; exact ih _ _ _ _ h1 env hf o ho
        · rename_i e1 x1 s1 h1; exact ih _ _ _ _ h1 env hf o ho
      obtain ⟨res, hx⟩ := key
      cases res with
      | ok o' => exact ⟨_, .loop1 _ _ _ _ ((exec_append _ _ _ _).2 (Or.inl ⟨o', hx, .cons_ok _ _ _ _ _ _ (.loop_end _ _ _) (.nil _ _)⟩))⟩
      | err e o' => exact ⟨_, .loop1 _ _ _ _ ((exec_append _ _ _ _).2 (Or.inr ⟨e, o', hx, rfl⟩))⟩
    | .one (.attempt k b hd) =>
      simp only [an_succ, anStep, anOne, anRest, anAsg, anRd, anCall, anTwo, anHas, anLoop, anLoop1, anTry, force_eq, joinK_eq, tb_eq, cond_eq_ite] at h
      have key : ∃ res, Exec src cs env o (.seq b) res := by
        split at h
        · simp at h
        · rename_i e1 r1 h1; exact ih _ _ _ _ h1 env hf o ho
        · rename_i e1 x1 r1 h1; exact ih _ _ _ _ h1 env hf o ho
      obtain ⟨res, hx⟩ := key
      cases res with
      | ok o' => exact ⟨_, .attempt_ok _ _ _ _ _ _ hx⟩
      | err e o' =>
        cases hc : catches k e with
        | false => exact ⟨_, .attempt_err _ _ _ _ _ _ _ hx hc⟩
        | true =>
          split at h
          · simp at h
          · rename_i e1 r1 h1
            obtain ⟨_, _, hs, _⟩ := an_sound src cs look hl _ _ _ _ _ h1 env hf o ho _ hx
            simp at hs
          · rename_i e1 x1 r1 h1
            obtain ⟨he, t, ht, hi⟩ := an_sound src cs look hl _ _ _ _ _ h1 env hf o ho _ hx
            simp only [Option.some.injEq] at ht he; subst ht
            have hany : e1.any (catches k) = true := List.any_eq_true.2 ⟨e, he, hc⟩
            rw [if_pos hany] at h
            split at h
            · simp at h
            · rename_i e2 x2 r2 h2
              obtain ⟨res', hx'⟩ := ih _ _ _ _ h2 env hf o' hi
              exact ⟨_, .attempt_catch _ _ _ _ _ _ _ _ hx hc hx'⟩
    | .one (.raise x) => exact ⟨_, .raise _ _ _⟩

/-! ### Lists of uses -/

/-- Enough fuel for every program here. -/
def fuel : ℕ := 4000

/-- The analysis says: ends well, within these bounds. -/
def good (inv : Bd) : Ana A M G X → Bool
  | some ([], _, some s) => le s inv
  | _ => false

/-- The analysis says: fails, and with this error. -/
def bad [DecidableEq M] [DecidableEq G] (e : Err A M G X) : Ana A M G X → Bool
  | some (es, _, none) => es.all (· = e)
  | _ => false

/-- Every attribute but these. -/
def allBut (miss : List A) : ℕ := miss.foldl (fun h a => off h (bit a)) (Nat.sub (Nat.shiftLeft 1 300) 1)

/-- Within bounds every allowed use ends well and stays within them, and these uses fail. -/
def steady [DecidableEq M] [DecidableEq G] (src : Source C A M G K D X) (look : Look C A M G K D X) (kn : Know) (code : U → List (Instr C A M G K D X)) (uses : List U) (failing : List (U × Err A M G X)) (inv : Bd) : Bool :=
  (uses.all fun u => good inv (an src look fuel kn inv (.seq (code u)))) && failing.all fun p => bad p.2 (an src look fuel kn inv (.seq (code p.1)))

/-- The whole check: the first piece of code ends well without the attributes `miss`, and then `steady`. -/
def sane [DecidableEq M] [DecidableEq G] (src : Source C A M G K D X) (look : Look C A M G K D X) (kn : Know) (first : List (Instr C A M G K D X)) (code : U → List (Instr C A M G K D X)) (uses : List U) (miss : List A)
    (failing : List (U × Err A M G X)) : Bool :=
  force (allBut miss) fun h => match an src look fuel kn (0, h) (.seq first) with
  | some ([], _, some s) => force s.1 fun l => le s (l, h) && steady src look kn code uses failing (l, h)
  | _ => false

theorem good_sound {src : Source C A M G K D X} {cs : List C} {look : Look C A M G K D X} (hl : ∀ w m kw, enter src cs w m kw ∈ look w m kw) {kn : Know} {env : Env D} (hf : Fits kn env) {s inv : Bd} {c : Code C A M G K D X} (h : good inv (an src look fuel kn s c) = true) {o : Obj A} (ho : In s o) :
    (∃ o', Exec src cs env o c (.ok o')) ∧ ∀ res, Exec src cs env o c res → ∃ o', res = .ok o' ∧ In inv o' := by
  match ha : an src look fuel kn s c with
  | none => rw [ha] at h; simp [good] at h
  | some (e :: es, _, r) => rw [ha] at h; simp [good] at h
  | some ([], _, none) => rw [ha] at h; simp [good] at h
  | some ([], _, some t) =>
    rw [ha] at h
    have key : ∀ res, Exec src cs env o c res → ∃ o', res = .ok o' ∧ In inv o' := by
      intro res hx
      have := an_sound src cs look hl _ _ _ _ _ ha env hf o ho res hx
      cases res with
      | ok o' =>
        obtain ⟨_, hs, hi⟩ := this
        simp only [Option.some.injEq] at hs; subst hs
        exact ⟨o', rfl, hi.mono h⟩
      | err e o' => simp [Agrees] at this
    obtain ⟨res, hx⟩ := an_exec src cs look hl _ _ _ _ _ ha env hf o ho
    obtain ⟨o', rfl, _⟩ := key res hx
    exact ⟨⟨o', hx⟩, key⟩

theorem bad_sound [DecidableEq M] [DecidableEq G] {src : Source C A M G K D X} {cs : List C} {look : Look C A M G K D X} (hl : ∀ w m kw, enter src cs w m kw ∈ look w m kw) {kn : Know} {env : Env D} (hf : Fits kn env) {s : Bd} {c : Code C A M G K D X} {e : Err A M G X}
    (h : bad e (an src look fuel kn s c) = true) {o : Obj A} (ho : In s o) : (∃ o', Exec src cs env o c (.err e o')) ∧ ∀ res, Exec src cs env o c res → ∃ o', res = .err e o' := by
  match ha : an src look fuel kn s c with
  | none => rw [ha] at h; simp [bad] at h
  | some (es, _, some t) => rw [ha] at h; simp [bad] at h
  | some (es, _, none) =>
    rw [ha] at h
    simp only [bad, List.all_eq_true, decide_eq_true_eq] at h
    have key : ∀ res, Exec src cs env o c res → ∃ o', res = .err e o' := by
      intro res hx
      have := an_sound src cs look hl _ _ _ _ _ ha env hf o ho res hx
      cases res with
      | ok o' => obtain ⟨_, hs, _⟩ := this; simp at hs
      | err e' o' => rw [h e' this.1]; exact ⟨o', rfl⟩
    obtain ⟨res, hx⟩ := an_exec src cs look hl _ _ _ _ _ ha env hf o ho
    obtain ⟨o', rfl⟩ := key res hx
    exact ⟨⟨o', hx⟩, key⟩

theorem in_fresh (h : ℕ) : In (0, h) (fresh : Obj A) := ⟨fun a h => by simp at h, fun a h => by simp [fresh] at h⟩

section
variable [DecidableEq M] [DecidableEq G] {src : Source C A M G K D X} {cs : List C} {look : Look C A M G K D X} {kn : Know} {env : Env D} {first : List (Instr C A M G K D X)} {code : U → List (Instr C A M G K D X)} {uses : List U} {miss : List A}
  {failing : List (U × Err A M G X)}

theorem sane_inv (h : sane src look kn first code uses miss failing = true) :
    ∃ (h : ℕ) (inv : Bd), good inv (an src look fuel kn (0, h) (.seq first)) = true ∧ steady src look kn code uses failing inv = true := by
  unfold sane at h
  rw [force_eq] at h
  split at h
  · rename_i s hs
    rw [force_eq, Bool.and_eq_true] at h
    exact ⟨_, _, by rw [hs]; exact h.1, h.2⟩
  · simp at h

/-- Every life made of allowed uses ends well, within the same bounds. -/
theorem steady_sound (hl : ∀ w m kw, enter src cs w m kw ∈ look w m kw) (hf : Fits kn env) {inv : Bd} {h' : ℕ} (h0 : good inv (an src look fuel kn (0, h') (.seq first)) = true)
    (h : steady src look kn code uses failing inv = true) (us : List U) (hus : ∀ u ∈ us, u ∈ uses) :
    (∃ o, Life src cs env first code us (.ok o)) ∧ ∀ res, Life src cs env first code us res → ∃ o, res = .ok o ∧ In inv o := by
  simp only [steady, Bool.and_eq_true, List.all_eq_true] at h
  obtain ⟨hu, _⟩ := h
  have run : ∀ (us : List U), (∀ u ∈ us, u ∈ uses) → ∀ o, In inv o →
      (∃ o', Exec src cs env o (.seq (us.flatMap code)) (.ok o')) ∧ ∀ res, Exec src cs env o (.seq (us.flatMap code)) res → ∃ o', res = .ok o' ∧ In inv o' := by
    intro us
    induction us with
    | nil =>
      intro _ o ho
      refine ⟨⟨o, .nil _ _⟩, fun res hx => ?_⟩
      cases hx
      exact ⟨o, rfl, ho⟩
    | cons u us ih =>
      intro hus o ho
      have hg := hu u (hus u (by simp))
      obtain ⟨⟨o1, hx1⟩, hall⟩ := good_sound hl hf hg ho
      rw [List.flatMap_cons]
      obtain ⟨_, e1, ho1⟩ := hall _ hx1
      cases e1
      have ih' := ih fun v hv => hus v (by simp [hv])
      obtain ⟨⟨o2, hx2⟩, _⟩ := ih' o1 ho1
      refine ⟨⟨o2, (exec_append _ _ _ _).2 (Or.inl ⟨o1, hx1, hx2⟩)⟩, fun res hx => ?_⟩
      rcases (exec_append _ _ _ _).1 hx with ⟨o3, h3, h4⟩ | ⟨e, o3, h3, _⟩
      · obtain ⟨_, e3, ho3⟩ := hall _ h3
        cases e3
        exact (ih' o3 ho3).2 res h4
      · obtain ⟨_, e3, _⟩ := hall _ h3
        cases e3
  obtain ⟨⟨o1, hx1⟩, hall⟩ := good_sound hl hf h0 (in_fresh _)
  obtain ⟨_, e1, ho1⟩ := hall _ hx1
  cases e1
  obtain ⟨⟨o2, hx2⟩, _⟩ := run us hus o1 ho1
  refine ⟨⟨o2, (exec_append _ _ _ _).2 (Or.inl ⟨o1, hx1, hx2⟩)⟩, fun res hx => ?_⟩
  rcases (exec_append _ _ _ _).1 hx with ⟨o3, h3, h4⟩ | ⟨e, o3, h3, _⟩
  · obtain ⟨_, e3, ho3⟩ := hall _ h3
    cases e3
    exact (run us hus o3 ho3).2 res h4
  · obtain ⟨_, e3, _⟩ := hall _ h3
    cases e3

/-- Every life made of allowed uses ends well. -/
theorem sane_sound (hl : ∀ w m kw, enter src cs w m kw ∈ look w m kw) (h : sane src look kn first code uses miss failing = true) (hf : Fits kn env) (us : List U) (hus : ∀ u ∈ us, u ∈ uses) :
    (∃ o, Life src cs env first code us (.ok o)) ∧ ∀ res, Life src cs env first code us res → ∃ o, res = .ok o := by
  obtain ⟨_, inv, h0, h1⟩ := sane_inv h
  obtain ⟨h2, h3⟩ := steady_sound hl hf h0 h1 us hus
  exact ⟨h2, fun res hr => (h3 res hr).imp fun _ p => p.1⟩

/-- After any allowed uses one more use fails. -/
theorem sane_then_bad (hl : ∀ w m kw, enter src cs w m kw ∈ look w m kw) (h : sane src look kn first code uses miss failing = true) (hf : Fits kn env) (us : List U) (hus : ∀ u ∈ us, u ∈ uses) (u : U) (e : Err A M G X)
    (hb : (u, e) ∈ failing) : (∃ o, Life src cs env first code (us ++ [u]) (.err e o)) ∧ ∀ res, Life src cs env first code (us ++ [u]) res → ∃ o, res = .err e o := by
  obtain ⟨_, inv, h0, h1⟩ := sane_inv h
  obtain ⟨⟨o, hx⟩, hall⟩ := steady_sound hl hf h0 h1 us hus
  simp only [steady, Bool.and_eq_true, List.all_eq_true] at h1
  have hb := h1.2 _ hb
  have split : first ++ (us ++ [u]).flatMap code = (first ++ us.flatMap code) ++ code u := by simp
  unfold Life
  rw [split]
  obtain ⟨_, e1, ho1⟩ := hall _ hx
  cases e1
  obtain ⟨o', hx'⟩ := (bad_sound hl hf hb ho1).1
  refine ⟨⟨o', (exec_append _ _ _ _).2 (Or.inl ⟨o, hx, hx'⟩)⟩, fun res hr => ?_⟩
  rcases (exec_append _ _ _ _).1 hr with ⟨o3, h3, h4⟩ | ⟨e', o3, h3, _⟩
  · obtain ⟨_, e3, ho3⟩ := hall _ h3
    cases e3
    exact (bad_sound hl hf hb ho3).2 res h4
  · obtain ⟨_, e3, _⟩ := hall _ h3
    cases e3

/-- Something that fails at once. -/
theorem first_bad (hl : ∀ w m kw, enter src cs w m kw ∈ look w m kw) {e : Err A M G X} (h : bad e (an src look fuel kn (0, 0) (.seq first)) = true) (hf : Fits kn env) (us : List U) :
    (∃ o, Life src cs env first code us (.err e o)) ∧ ∀ res, Life src cs env first code us res → ∃ o, res = .err e o := by
  obtain ⟨⟨o, h1⟩, h2⟩ := bad_sound hl hf h (in_fresh _)
  refine ⟨⟨o, (exec_append _ _ _ _).2 (Or.inr ⟨e, o, h1, rfl⟩)⟩, fun res hr => ?_⟩
  rcases (exec_append _ _ _ _).1 hr with ⟨o3, h3, _⟩ | ⟨e', o3, h3, h4⟩
  · obtain ⟨o', h'⟩ := h2 _ h3; cases h'
  · obtain ⟨o', h'⟩ := h2 _ h3; cases h'; exact ⟨o3, h4⟩

/-- All errors of a piece of code are among these, and a good end is within bounds. -/
def quiet (P : Err A M G X → Bool) (inv : Bd) : Ana A M G X → Bool
  | some (e, _, r) => e.all P && match r with
    | none => true
    | some s => le s inv
  | none => false

/-- The first piece of code and all uses after it have no errors but these. -/
def calm (src : Source C A M G K D X) (look : Look C A M G K D X) (kn : Know) (first : List (Instr C A M G K D X)) (code : U → List (Instr C A M G K D X)) (uses : List U) (miss : List A) (P : Err A M G X → Bool) : Bool :=
  force (allBut miss) fun h => match an src look fuel kn (0, h) (.seq first) with
  | some (e, _, some s) => e.all P && force s.1 fun l => le s (l, h) && uses.all fun u => quiet P (l, h) (an src look fuel kn (l, h) (.seq (code u)))
  | _ => false

theorem quiet_sound (hl : ∀ w m kw, enter src cs w m kw ∈ look w m kw) (hf : Fits kn env) {P : Err A M G X → Bool} {s inv : Bd} {c : Code C A M G K D X} (h : quiet P inv (an src look fuel kn s c) = true) {o : Obj A} (ho : In s o) :
    (∃ res, Exec src cs env o c res) ∧ ∀ res, Exec src cs env o c res → (∃ o', res = .ok o' ∧ In inv o') ∨ ∃ e o', res = .err e o' ∧ P e = true := by
  match ha : an src look fuel kn s c with
  | none => rw [ha] at h; simp [quiet] at h
  | some (es, x, r) =>
    rw [ha] at h
    simp only [quiet, Bool.and_eq_true, List.all_eq_true] at h
    refine ⟨an_exec src cs look hl _ _ _ _ _ ha env hf o ho, fun res hx => ?_⟩
    have := an_sound src cs look hl _ _ _ _ _ ha env hf o ho res hx
    cases res with
    | ok o' =>
      obtain ⟨t, hs, hi⟩ := this
      simp only at hs; subst hs
      exact Or.inl ⟨o', rfl, hi.mono h.2⟩
    | err e o' => exact Or.inr ⟨e, o', rfl, h.1 e this.1⟩

/-- Lives made of these uses exist and have no errors but these. -/
theorem calm_sound {P : Err A M G X → Bool} (hl : ∀ w m kw, enter src cs w m kw ∈ look w m kw) (h : calm src look kn first code uses miss P = true) (hf : Fits kn env) (us : List U) (hus : ∀ u ∈ us, u ∈ uses) :
    (∃ res, Life src cs env first code us res) ∧ ∀ e o, Life src cs env first code us (.err e o) → P e = true := by
  obtain ⟨h', inv, h0, h1⟩ : ∃ (h' : ℕ) (inv : Bd), quiet P inv (an src look fuel kn (0, h') (.seq first)) = true ∧ ∀ u ∈ uses, quiet P inv (an src look fuel kn inv (.seq (code u))) = true := by
    unfold calm at h
    rw [force_eq] at h
    split at h
    · rename_i e x s hs
      rw [force_eq, Bool.and_eq_true, Bool.and_eq_true] at h
      exact ⟨_, _, by rw [hs]; simp only [quiet, Bool.and_eq_true]; exact ⟨h.1, h.2.1⟩, List.all_eq_true.1 h.2.2⟩
    · simp at h
  have run : ∀ (us : List U), (∀ u ∈ us, u ∈ uses) → ∀ o, In inv o →
      (∃ res, Exec src cs env o (.seq (us.flatMap code)) res) ∧ ∀ e o', Exec src cs env o (.seq (us.flatMap code)) (.err e o') → P e = true := by
    intro us
    induction us with
    | nil =>
      intro _ o ho
      refine ⟨⟨_, .nil _ _⟩, fun e o' hx => ?_⟩
      cases hx
    | cons u us ih =>
      intro hus o ho
      obtain ⟨⟨res1, hx1⟩, hall⟩ := quiet_sound hl hf (h1 u (hus u (by simp))) ho
      rw [List.flatMap_cons]
      have ih' := ih fun v hv => hus v (by simp [hv])
      constructor
      · rcases hall _ hx1 with ⟨o1, rfl, ho1⟩ | ⟨e, o1, rfl, _⟩
        · obtain ⟨res2, hx2⟩ := (ih' o1 ho1).1
          exact ⟨res2, (exec_append _ _ _ _).2 (Or.inl ⟨o1, hx1, hx2⟩)⟩
        · exact ⟨_, (exec_append _ _ _ _).2 (Or.inr ⟨e, o1, hx1, rfl⟩)⟩
      · intro e o' hx
        rcases (exec_append _ _ _ _).1 hx with ⟨o3, h3, h4⟩ | ⟨e', o3, h3, h4⟩
        · rcases hall _ h3 with ⟨_, e3, ho3⟩ | ⟨_, _, e3, _⟩
          · cases e3; exact (ih' o3 ho3).2 e o' h4
          · cases e3
        · cases h4
          rcases hall _ h3 with ⟨_, e3, _⟩ | ⟨_, _, e3, hp⟩
          · cases e3
          · cases e3; exact hp
  obtain ⟨⟨res1, hx1⟩, hall⟩ := quiet_sound hl hf h0 (in_fresh _)
  constructor
  · rcases hall _ hx1 with ⟨o1, rfl, ho1⟩ | ⟨e, o1, rfl, _⟩
    · obtain ⟨res2, hx2⟩ := (run us hus o1 ho1).1
      exact ⟨res2, (exec_append _ _ _ _).2 (Or.inl ⟨o1, hx1, hx2⟩)⟩
    · exact ⟨_, (exec_append _ _ _ _).2 (Or.inr ⟨e, o1, hx1, rfl⟩)⟩
  · intro e o' hx
    rcases (exec_append _ _ _ _).1 hx with ⟨o3, h3, h4⟩ | ⟨e', o3, h3, h4⟩
    · rcases hall _ h3 with ⟨_, e3, ho3⟩ | ⟨_, _, e3, _⟩
      · cases e3; exact (run us hus o3 ho3).2 e o' h4
      · cases e3
    · cases h4
      rcases hall _ h3 with ⟨_, e3, _⟩ | ⟨_, _, e3, hp⟩
      · cases e3
      · cases e3; exact hp

/-- The analysis says: does not end well. -/
def never : Ana A M G X → Bool
  | some (_, _, none) => true
  | _ => false

/-- After the first piece of code and any uses, which cannot make the attributes `miss`, the use `v` does not end well. -/
def doomed (src : Source C A M G K D X) (look : Look C A M G K D X) (kn : Know) (first : List (Instr C A M G K D X)) (code : U → List (Instr C A M G K D X)) (uses : List U) (miss : List A) (v : U) : Bool :=
  force (allBut miss) fun h => quiet (fun _ => true) (0, h) (an src look fuel kn (0, h) (.seq first)) && (uses.all fun u => quiet (fun _ => true) (0, h) (an src look fuel kn (0, h) (.seq (code u)))) &&
    never (an src look fuel kn (0, h) (.seq (code v)))

theorem never_sound (hl : ∀ w m kw, enter src cs w m kw ∈ look w m kw) (hf : Fits kn env) {s : Bd} {c : Code C A M G K D X} (h : never (an src look fuel kn s c) = true) {o : Obj A} (ho : In s o) (o' : Obj A) :
    ¬ Exec src cs env o c (.ok o') := by
  intro hx
  match ha : an src look fuel kn s c with
  | none => rw [ha] at h; simp [never] at h
  | some (es, x, some t) => rw [ha] at h; simp [never] at h
  | some (es, x, none) =>
    obtain ⟨_, hs, _⟩ := an_sound src cs look hl _ _ _ _ _ ha env hf o ho _ hx
    simp at hs

/-- A first piece of code that does not end well. -/
theorem first_never (hl : ∀ w m kw, enter src cs w m kw ∈ look w m kw) (hf : Fits kn env) {h' : ℕ} (h : never (an src look fuel kn (0, h') (.seq first)) = true) (us : List U) (o : Obj A) : ¬ Life src cs env first code us (.ok o) := by
  intro hx
  rcases (exec_append _ _ _ _).1 hx with ⟨o3, h3, _⟩ | ⟨e, o3, _, h4⟩
  · exact never_sound hl hf h (in_fresh _) _ h3
  · cases h4

theorem doomed_sound {v : U} (hl : ∀ w m kw, enter src cs w m kw ∈ look w m kw) (h : doomed src look kn first code uses miss v = true) (hf : Fits kn env) (us us' : List U) (hus : ∀ u ∈ us, u ∈ uses) (o : Obj A) :
    ¬ Life src cs env first code (us ++ v :: us') (.ok o) := by
  unfold doomed at h
  rw [force_eq, Bool.and_eq_true, Bool.and_eq_true, List.all_eq_true] at h
  obtain ⟨⟨h0, h1⟩, h2⟩ := h
  have run : ∀ (us : List U), (∀ u ∈ us, u ∈ uses) → ∀ o1, In (0, allBut miss) o1 → ¬ Exec src cs env o1 (.seq ((us ++ v :: us').flatMap code)) (.ok o) := by
    intro us
    induction us with
    | nil =>
      intro _ o1 ho hx
      rw [List.nil_append, List.flatMap_cons] at hx
      rcases (exec_append _ _ _ _).1 hx with ⟨o3, h3, _⟩ | ⟨e, o3, _, h4⟩
      · exact never_sound hl hf h2 ho _ h3
      · cases h4
    | cons u us ih =>
      intro hus o1 ho hx
      rw [List.cons_append, List.flatMap_cons] at hx
      rcases (exec_append _ _ _ _).1 hx with ⟨o3, h3, h4⟩ | ⟨e, o3, _, h4⟩
      · rcases (quiet_sound hl hf (h1 u (hus u (by simp))) ho).2 _ h3 with ⟨_, e3, ho3⟩ | ⟨_, _, e3, _⟩
        · cases e3
          exact ih (fun w hw => hus w (by simp [hw])) o3 ho3 h4
        · cases e3
      · cases h4
  intro hx
  rcases (exec_append _ _ _ _).1 hx with ⟨o3, h3, h4⟩ | ⟨e, o3, _, h4⟩
  · rcases (quiet_sound hl hf h0 (in_fresh _)).2 _ h3 with ⟨_, e3, ho3⟩ | ⟨_, _, e3, _⟩
    · cases e3
      exact run us hus o3 ho3 h4
    · cases e3
  · cases h4

end

/-! ### Objects of several kinds at once -/

section
variable [DecidableEq M]

/-- One chain. -/
def only (src : Source C A M G K D X) (cs : List C) : Look C A M G K D X := fun w m kw => [enter src cs w m kw]

theorem only_mem (src : Source C A M G K D X) (cs : List C) (w : Via C) (m : M) (kw : List K) : enter src cs w m kw ∈ only src cs w m kw := by simp [only]

/-- One alternative of each part, put together. -/
def picks : List (List (List C)) → List (List C)
  | [] => [[]]
  | p :: r => p.flatMap fun l => (picks r).map (l ++ ·)

/-- The class whose method is found. -/
def owner (src : Source C A M G K D X) (m : M) : List C → Option C
  | [] => none
  | c :: cs => match src.methods c m with
    | some _ => some c
    | none => owner src m cs

/-- Without repetitions. -/
def once {α : Type} [DecidableEq α] : List α → List α
  | [] => []
  | x :: l => if x ∈ once l then once l else x :: once l

/-- All classes that can be found. -/
def owners (src : Source C A M G K D X) (m : M) : List (List (List C)) → List (Option C)
  | [] => [none]
  | p :: r => if none ∈ p.map (owner src m) then once ((p.map (owner src m)).filter Option.isSome ++ owners src m r) else once (p.map (owner src m))

/-- The method of this class, or the error. -/
def ofOwner (src : Source C A M G K D X) (m : M) (kw : List K) : Option C → Except (Err A M G X) (Method C A M G K D X)
  | none => .error (.noMethod m)
  | some c => match src.methods c m with
    | none => .error (.noMethod m)
    | some x => if kw.all (· ∈ x.params) then .ok x else .error (.typeError m)

/-- What a call can enter if each part is one of its alternatives. -/
def among (src : Source C A M G K D X) (parts : List (List (List C))) : Look C A M G K D X
  | .self, m, kw => (owners src m parts).map (ofOwner src m kw)
  | w, m, kw => (once ((picks parts).map fun cs => match chain cs w with
      | none => none
      | some l => some (owner src m l))).map fun
      | none => .error (.typeError m)
      | some c => ofOwner src m kw c

theorem mem_once {α : Type} [DecidableEq α] (x : α) (l : List α) : x ∈ once l ↔ x ∈ l := by
  induction l with
  | nil => simp [once]
  | cons y l ih =>
    simp only [once]
    split
    · rename_i h
      rw [ih, List.mem_cons]
      constructor
      · exact Or.inr
      · rintro (rfl | h')
        · exact ih.1 h
        · exact h'
    · simp [ih]

theorem owner_append (src : Source C A M G K D X) (m : M) (l r : List C) : owner src m (l ++ r) = match owner src m l with | none => owner src m r | some c => some c := by
  induction l with
  | nil => simp [owner]
  | cons c l ih =>
    simp only [List.cons_append, owner]
    split <;> simp_all

theorem owner_mem (src : Source C A M G K D X) (m : M) : ∀ (parts : List (List (List C))) (cs : List C), cs ∈ picks parts → owner src m cs ∈ owners src m parts := by
  intro parts
  induction parts with
  | nil => intro cs h; simp only [picks, List.mem_singleton] at h; subst h; simp [owner, owners]
  | cons p r ih =>
    intro cs h
    simp only [picks, List.mem_flatMap, List.mem_map] at h
    obtain ⟨l, hl, cs', hc, rfl⟩ := h
    rw [owner_append]
    simp only [owners]
    match ho : owner src m l with
    | none =>
      have : none ∈ p.map (owner src m) := List.mem_map.2 ⟨l, hl, ho⟩
      rw [if_pos this, mem_once]
      exact List.mem_append_right _ (ih cs' hc)
    | some c =>
      have : some c ∈ p.map (owner src m) := List.mem_map.2 ⟨l, hl, ho⟩
      split <;> rw [mem_once]
      · exact List.mem_append_left _ (List.mem_filter.2 ⟨this, rfl⟩)
      · exact this

theorem enter_owner (src : Source C A M G K D X) (m : M) (kw : List K) (l : List C) : (match find src m l with
    | none => Except.error (Err.noMethod m)
    | some x => if kw.all (· ∈ x.params) then Except.ok x else Except.error (Err.typeError m)) = ofOwner src m kw (owner src m l) := by
  induction l with
  | nil => rfl
  | cons c l ih =>
    simp only [find, owner]
    match hm : src.methods c m with
    | none => simpa using ih
    | some x => simp [ofOwner, hm]

theorem among_mem (src : Source C A M G K D X) (parts : List (List (List C))) (cs : List C) (h : cs ∈ picks parts) (w : Via C) (m : M) (kw : List K) : enter src cs w m kw ∈ among src parts w m kw := by
  have key : w = .self ∨ among src parts w m kw = (once ((picks parts).map fun cs => match chain cs w with
      | none => none
      | some l => some (owner src m l))).map fun
      | none => .error (.typeError m)
      | some c => ofOwner src m kw c := by cases w <;> simp [among]
  rcases key with rfl | key
  · rw [enter, chain]
    simp only [among, List.mem_map]
    exact ⟨_, owner_mem src m parts cs h, (enter_owner src m kw cs).symm⟩
  · rw [key, List.mem_map]
    refine ⟨match chain cs w with
      | none => none
      | some l => some (owner src m l), ?_, ?_⟩
    · rw [mem_once]; exact List.mem_map.2 ⟨cs, h, rfl⟩
    · unfold enter
      match chain cs w with
      | none => rfl
      | some l => exact (enter_owner src m kw l).symm

end

end Soapy.Prog
