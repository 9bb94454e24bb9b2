/-
Python programs reduced to what decides whether names exist: they assign and read attributes, read module-level names, call methods, branch, loop, raise and catch.
A language for `Model/Sys.lean`; it is `Model/Attr.lean`'s with exceptions that can be caught, for any set of names.

Simplifications: values are left out; local variables and calls into other packages are left out unless a definition says otherwise.  `a[:] = …` and `a += …` read `a`.
-/
import Mathlib.Logic.Function.Basic

namespace Soapy.Prog

/-- Where a method is looked up: `self.m`, `super(c, self).m`, `c.m`. -/
inductive Via (C : Type)
  | self
  | sup (c : C)
  | cls (c : C)

/-- What an `except` clause catches: everything, `AttributeError`, one kind of other exception. -/
inductive Catch (X : Type)
  | bare
  | attribute
  | only (x : X)

/-- A statement.  `C`: classes, `A`: attributes, `M`: methods, `G`: module-level names, `K`: keywords, `D`: conditions, `X`: other exceptions. -/
inductive Instr (C A M G K D X : Type)
  /-- `self.a = …` -/
  | asg (a : A)
  /-- `self.a` is read -/
  | rd (a : A)
  /-- the object no longer has `a` -/
  | del (a : A)
  /-- a module-level name is read -/
  | glob (g : G)
  /-- a call with keywords; the pairs are the values of arguments that are conditions -/
  | call (w : Via C) (m : M) (kw : List K) (args : List (D × Bool))
  /-- branch on a condition -/
  | ifc (c : D) (t e : List (Instr C A M G K D X))
  /-- branch on anything else -/
  | ifa (t e : List (Instr C A M G K D X))
  /-- `if hasattr(self, "a"): t else: e` -/
  | has (a : A) (t e : List (Instr C A M G K D X))
  /-- any number of rounds -/
  | loop (b : List (Instr C A M G K D X))
  /-- any number of rounds, at least one -/
  | loop1 (b : List (Instr C A M G K D X))
  /-- `try: b except …: h` -/
  | attempt (k : Catch X) (b h : List (Instr C A M G K D X))
  /-- another exception -/
  | raise (x : X)

variable {C A M G K D X : Type}

/-- A method: its parameters, the defaults of the parameters that are conditions, its body. -/
structure Method (C A M G K D X : Type) where
  params : List K
  dflt : List (D × Bool)
  body : List (Instr C A M G K D X)

/-- The source: methods of each class, properties (what an assignment to, or a read of, an attribute calls), module-level names that exist. -/
structure Source (C A M G K D X : Type) where
  methods : C → M → Option (Method C A M G K D X)
  setter : A → Option M
  getter : A → Option M
  defined : G → Bool

/-- Several reads. -/
def reads (l : List A) : List (Instr C A M G K D X) := l.map .rd

/-- Several assignments. -/
def sets (l : List A) : List (Instr C A M G K D X) := l.map .asg

/-- `self.m()` -/
def run (m : M) : List (Instr C A M G K D X) := [.call .self m [] []]

/-- Kinds of failure. -/
inductive Err (A M G X : Type)
  | attributeError (a : A)
  | noMethod (m : M)
  | nameError (g : G)
  | typeError (m : M)
  | other (x : X)
  deriving DecidableEq

/-- Does the clause catch it?  A missing method is an `AttributeError` as well. -/
def catches [DecidableEq X] : Catch X → Err A M G X → Bool
  | .bare, _ => true
  | .attribute, .attributeError _ => true
  | .attribute, .noMethod _ => true
  | .only x, .other y => decide (x = y)
  | _, _ => false

/-- Look a method up in a chain of classes. -/
def find (src : Source C A M G K D X) (m : M) : List C → Option (Method C A M G K D X)
  | [] => none
  | c :: cs => match src.methods c m with
    | some x => some x
    | none => find src m cs

/-- Values of the conditions. -/
abbrev Env (D : Type) := D → Bool

/-- Arguments override. -/
def bind [DecidableEq D] {V : Type} (env : D → V) (args : List (D × V)) : D → V := fun c => match args.find? (·.1 = c) with
  | some p => p.2
  | none => env c

/-- The chain of classes in which a call looks; `super(c, self)` fails if `self` is not a `c`. -/
def chain [DecidableEq C] (cs : List C) : Via C → Option (List C)
  | .self => some cs
  | .sup c => if c ∈ cs then some (cs.dropWhile (· ≠ c)).tail else none
  | .cls c => some (cs.dropWhile (· ≠ c))

/-- The method a call enters, or the error. -/
def enter [DecidableEq C] [DecidableEq K] (src : Source C A M G K D X) (cs : List C) (w : Via C) (m : M) (kw : List K) : Except (Err A M G X) (Method C A M G K D X) :=
  match chain cs w with
  | none => .error (.typeError m)
  | some l => match find src m l with
    | none => .error (.noMethod m)
    | some x => if kw.all (· ∈ x.params) then .ok x else .error (.typeError m)

/-- Which attributes there are. -/
abbrev Obj (A : Type) := A → Bool

/-- How an execution ends. -/
inductive Res (A M G X : Type)
  | ok (o : Obj A)
  | err (e : Err A M G X) (o : Obj A)

/-- One statement or a list of statements. -/
inductive Code (C A M G K D X : Type)
  | one (i : Instr C A M G K D X)
  | seq (l : List (Instr C A M G K D X))

variable [DecidableEq C] [DecidableEq A] [DecidableEq K] [DecidableEq D] [DecidableEq X]

/-- All executions on an object whose class has the chain `cs`. -/
inductive Exec (src : Source C A M G K D X) (cs : List C) : Env D → Obj A → Code C A M G K D X → Res A M G X → Prop
  | nil (env o) : Exec src cs env o (.seq []) (.ok o)
  | cons_ok (env o i r o' res) : Exec src cs env o (.one i) (.ok o') → Exec src cs env o' (.seq r) res → Exec src cs env o (.seq (i :: r)) res
  | cons_err (env o i r e o') : Exec src cs env o (.one i) (.err e o') → Exec src cs env o (.seq (i :: r)) (.err e o')
  | asg (env o a) : src.setter a = none → Exec src cs env o (.one (.asg a)) (.ok (Function.update o a true))
  | asg_prop (env o a m res) : src.setter a = some m → Exec src cs env o (.one (.call .self m [] [])) res → Exec src cs env o (.one (.asg a)) res
  | rd_ok (env o a) : src.getter a = none → o a = true → Exec src cs env o (.one (.rd a)) (.ok o)
  | rd_err (env o a) : src.getter a = none → o a = false → Exec src cs env o (.one (.rd a)) (.err (.attributeError a) o)
  | rd_prop (env o a m res) : src.getter a = some m → Exec src cs env o (.one (.call .self m [] [])) res → Exec src cs env o (.one (.rd a)) res
  | del (env o a) : Exec src cs env o (.one (.del a)) (.ok (Function.update o a false))
  | glob_ok (env o g) : src.defined g = true → Exec src cs env o (.one (.glob g)) (.ok o)
  | glob_err (env o g) : src.defined g = false → Exec src cs env o (.one (.glob g)) (.err (.nameError g) o)
  | call_bad (env o w m kw args e) : enter src cs w m kw = .error e → Exec src cs env o (.one (.call w m kw args)) (.err e o)
  | call (env o w m kw args x res) : enter src cs w m kw = .ok x → Exec src cs (bind (bind env x.dflt) args) o (.seq x.body) res → Exec src cs env o (.one (.call w m kw args)) res
  | ifc (env o c t e res) : Exec src cs env o (.seq (if env c then t else e)) res → Exec src cs env o (.one (.ifc c t e)) res
  | ifa_true (env o t e res) : Exec src cs env o (.seq t) res → Exec src cs env o (.one (.ifa t e)) res
  | ifa_false (env o t e res) : Exec src cs env o (.seq e) res → Exec src cs env o (.one (.ifa t e)) res
  | has (env o a t e res) : Exec src cs env o (.seq (if o a then t else e)) res → Exec src cs env o (.one (.has a t e)) res
  | loop_end (env o b) : Exec src cs env o (.one (.loop b)) (.ok o)
  | loop_err (env o b e o') : Exec src cs env o (.seq b) (.err e o') → Exec src cs env o (.one (.loop b)) (.err e o')
  | loop_more (env o b o' res) : Exec src cs env o (.seq b) (.ok o') → Exec src cs env o' (.one (.loop b)) res → Exec src cs env o (.one (.loop b)) res
  | loop1 (env o b res) : Exec src cs env o (.seq (b ++ [.loop b])) res → Exec src cs env o (.one (.loop1 b)) res
  | attempt_ok (env o k b h o') : Exec src cs env o (.seq b) (.ok o') → Exec src cs env o (.one (.attempt k b h)) (.ok o')
  | attempt_err (env o k b h e o') : Exec src cs env o (.seq b) (.err e o') → catches k e = false → Exec src cs env o (.one (.attempt k b h)) (.err e o')
  | attempt_catch (env o k b h e o' res) : Exec src cs env o (.seq b) (.err e o') → catches k e = true → Exec src cs env o' (.seq h) res → Exec src cs env o (.one (.attempt k b h)) res
  | raise (env o x) : Exec src cs env o (.one (.raise x)) (.err (.other x) o)

/-- A fresh object has no attributes. -/
def fresh : Obj A := fun _ => false

/-- What can happen when the first piece of code runs on a fresh object and then the others in order. -/
def Life {U : Type} (src : Source C A M G K D X) (cs : List C) (env : Env D) (first : List (Instr C A M G K D X)) (code : U → List (Instr C A M G K D X)) (us : List U) (res : Res A M G X) : Prop :=
  Exec src cs env fresh (.seq (first ++ us.flatMap code)) res

end Soapy.Prog
