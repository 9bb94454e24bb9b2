/-
Property theorems C136: which messages a user sees, from a script and from the program `soapy`.
-/
import Verif.Model.Cli
import Mathlib.Tactic.Common

namespace Soapy.Cli

/-- What a reader expects to see at level `n`: the messages of at most that level, in order. -/
def seen (n : ℤ) (ms : List Msg) : List String := (ms.filter fun m => decide (m.level ≤ n)).map (dressed n)

/-- What is expected in the log file. -/
def logged (c : Colours) (f : Option String) (n : ℤ) (ms : List Msg) : List (String × String) :=
  match f with
  | none => []
  | some f => if f = "" then [] else (ms.filter fun m => decide (m.level ≤ n)).map fun m => (f, c m.level ++ dressed n m)

theorem perform_append (c : Colours) (as bs : List Act) : ∀ g : Log, perform c g (as ++ bs) =
    if (perform c g as).2 then perform c (perform c g as).1 bs else perform c g as := by
  induction as with
  | nil => intro g; rfl
  | cons a as ih =>
    intro g
    rw [List.cons_append, perform, perform]
    cases h : act c g a with
    | none => simp
    | some g' => exact ih g'

theorem perform_says (c : Colours) (n : ℤ) (ms : List Msg) : ∀ g : Log, g.level = .num n →
    perform c g (ms.map .say) = ({ g with printed := g.printed ++ seen n ms, written := g.written ++ logged c g.file n ms }, true) := by
  induction ms with
  | nil =>
    intro g _
    have hl : logged c g.file n [] = [] := by
      unfold logged
      split
      · rfl
      · split <;> rfl
    simp only [List.map_nil, perform, seen, List.filter_nil, List.append_nil, hl]
  | cons m ms ih =>
    intro g hg
    have hstep : say c g m = if m.level ≤ n then some { g with printed := g.printed ++ [dressed n m], written := match g.file with
          | some f => if f = "" then g.written else g.written ++ [(f, c m.level ++ dressed n m)]
          | none => g.written } else some g := by
      unfold say
      rw [hg]
      rfl
    rw [List.map_cons, perform, act, hstep]
    by_cases hm : m.level ≤ n
    · simp only [if_pos hm]
      rw [ih _ (by exact hg)]
      have hs : seen n (m :: ms) = dressed n m :: seen n ms := by simp [seen, hm]
      rw [hs]
      obtain ⟨l, f, p, w⟩ := g
      cases f with
      | none => simp [logged]
      | some f =>
        by_cases hf : f = ""
        · simp [logged, hf]
        · simp [logged, hf, hm]
    · simp only [if_neg hm]
      rw [ih _ hg]
      have hs : seen n (m :: ms) = seen n ms := by simp [seen, hm]
      have hw : logged c g.file n (m :: ms) = logged c g.file n ms := by
        unfold logged
        simp [hm]
      rw [hs, hw]

theorem perform_text (c : Colours) (s : String) (g : Log) (hg : g.level = .text s) (m : Msg) (as : List Act) : perform c g (.say m :: as) = (g, false) := by
  rw [perform, act, say, hg]

/-- The messages of reading the configuration and of the run. -/
def loading (s : Said) : List Msg :=
  ⟨2, "simulation.py -> readParams", "Loading configuration file..."⟩ :: s.load ++ [⟨2, "simulation.py -> readParams", "Loading configuration file... success!"⟩]

def running (stamp : String) (s : Said) : List Msg :=
  ⟨2, "simulation.py -> aoinit", "Starting Sim: " ++ stamp⟩ :: s.init ++ s.run

theorem readParams_eq (s : Said) : readParams s = (loading s).map .say := by simp [readParams, loading]

theorem aoinit_eq (stamp : String) (conf : Conf) (s : Said) :
    aoinit stamp conf s ++ s.run.map .say = .level conf.verbosity :: .file conf.logfile :: (running stamp s).map .say := by simp [aoinit, running]

theorem script_ends (c : Colours) (g : Log) (k : ℤ) (hg : g.level = .num k) (stamp : String) (conf : Conf) (v : ℤ) (hv : conf.verbosity = .num v) (s : Said) :
    perform c g ((loading s).map .say ++ .level conf.verbosity :: .file conf.logfile :: (running stamp s).map .say) =
      (⟨.num v, conf.logfile, g.printed ++ seen k (loading s) ++ seen v (running stamp s),
        g.written ++ logged c g.file k (loading s) ++ logged c conf.logfile v (running stamp s)⟩, true) := by
  rw [perform_append, perform_says c k _ g hg]
  simp only [if_true]
  rw [perform, act]
  simp only []
  rw [perform, act]
  simp only []
  rw [perform_says c v _ _ hv, hv]

end Soapy.Cli

namespace Soapy.Props

open Soapy.Cli

/-- **C136 (script).** A script that makes, initialises and runs a simulation shows, from `aoinit` on, exactly the messages of at most the level `verbosity` of its configuration, and writes the same messages to its log file behind what is there; while the configuration is read the level is the one left by what ran before (1 after import). -/
theorem C136_script (c : Colours) (g : Log) (k : ℤ) (hg : g.level = .num k) (stamp : String) (conf : Conf) (v : ℤ) (hv : conf.verbosity = .num v) (s : Said) :
    perform c g (script stamp conf s) =
      (⟨.num v, conf.logfile, g.printed ++ seen k (loading s) ++ seen v (running stamp s),
        g.written ++ logged c g.file k (loading s) ++ logged c conf.logfile v (running stamp s)⟩, true) := by
  rw [script, List.append_assoc, aoinit_eq, readParams_eq, script_ends c g k hg stamp conf v hv s]

/-- **C136 (first run).** In a new process the configuration is read at level 1: the two messages of `readParams` are not shown, and of the parser only its warnings. -/
theorem C136_fresh (c : Colours) (stamp : String) (conf : Conf) (v : ℤ) (hv : conf.verbosity = .num v) (s : Said) :
    (perform c fresh (script stamp conf s)).1.printed = seen 1 s.load ++ seen v (running stamp s) ∧
    (perform c fresh (script stamp conf s)).1.written = logged c conf.logfile v (running stamp s) := by
  rw [C136_script c fresh 1 rfl stamp conf v hv s]
  constructor
  · have : seen 1 (loading s) = seen 1 s.load := by simp [seen, loading, List.filter_cons, List.filter_append]
    simp [fresh, this]
  · simp [fresh, logged]

/-- **C136 (levels).** A higher level shows every message a lower one shows; level 0 shows nothing of what `info`, `debug`, `warning` and `print_` say. -/
theorem C136_levels (n n' : ℤ) (h : n ≤ n') (ms : List Msg) :
    ((ms.filter fun m => decide (m.level ≤ n)).Sublist (ms.filter fun m => decide (m.level ≤ n'))) ∧
    ((∀ m ∈ ms, 1 ≤ m.level) → seen 0 ms = []) := by
  constructor
  · exact List.monotone_filter_right _ fun m hm => by
      have : m.level ≤ n := by simpa using hm
      simpa using Int.le_trans this h
  · intro h1
    unfold seen
    rw [List.map_eq_nil_iff, List.filter_eq_nil_iff]
    intro m hm
    have := h1 m hm
    simp only [decide_eq_true_eq]
    omega

/-- What the user asked for: `-d` is level 3, `-V n` is level n (of the documented 0 to 3), otherwise the configuration file decides. -/
def asked (a : Args) (conf : Conf) : Option ℤ :=
  if a.debug then some 3 else
    match a.verbosity with
    | some s => if s = "0" then some 0 else if s = "1" then some 1 else if s = "2" then some 2 else if s = "3" then some 3 else none
    | none => match conf.verbosity with
      | .num v => some v
      | .text _ => none

/-- The program honours what it was asked: the messages of the run that are shown are those of at most that level. -/
def Honoured (a : Args) (conf : Conf) : Prop :=
  ∀ n, asked a conf = some n → ∀ (c : Colours) (stamp : String) (s : Said), ∃ before : List String,
    (perform c fresh (command stamp a conf s)).1.printed = before ++ seen n (running stamp s)

theorem command_eq (stamp : String) (a : Args) (conf : Conf) (s : Said) (h : (!a.gui && a.interactive) = false) :
    command stamp a conf s = .level a.chosen :: ((loading s).map .say ++ .level (a.conf conf).verbosity :: .file conf.logfile :: (running stamp s).map .say) := by
  have he := aoinit_eq stamp (a.conf conf) s
  rw [command, h, readParams_eq]
  simp only [Bool.false_eq_true, if_false]
  rw [List.cons_append, he]
  rfl

/-- **C136 (command line without `-V`).** The program runs to its end.  While the file is read the level is 2, or 3 with `-d`; in the run it is 3 only with `-d` in the GUI, and 2 otherwise - whatever the configuration file says. -/
theorem C136_command (c : Colours) (stamp : String) (a : Args) (h : a.verbosity = none) (hi : (!a.gui && a.interactive) = false) (conf : Conf) (s : Said) :
    perform c fresh (command stamp a conf s) =
      (⟨.num (if a.gui && a.debug then 3 else 2), conf.logfile,
        seen (if a.debug then 3 else 2) (loading s) ++ seen (if a.gui && a.debug then 3 else 2) (running stamp s),
        logged c conf.logfile (if a.gui && a.debug then 3 else 2) (running stamp s)⟩, true) := by
  have hc : a.chosen = .num (if a.debug then 3 else 2) := by
    unfold Args.chosen Args.verb
    rw [h]
    cases a.debug <;> rfl
  have hv : (a.conf conf).verbosity = .num (if a.gui && a.debug then 3 else 2) := by
    unfold Args.conf Args.chosen Args.verb
    rw [h]
    cases a.gui <;> cases a.debug <;> rfl
  rw [command_eq stamp a conf s hi, perform, act, hc]
  simp only []
  have hl : (a.conf conf).logfile = conf.logfile := rfl
  have := script_ends c { fresh with level := .num (if a.debug then 3 else 2) } _ rfl stamp (a.conf conf) _ hv s
  rw [hl] at this
  rw [this]
  have h0 : ∀ k ms, logged c none k ms = [] := fun _ _ => rfl
  simp [fresh, h0]

/-- **C136 (`-V n`).** With `-V` and any number behind it the program ends with a TypeError before it has read the configuration; with `-d -V n` on the command line it ends at the first message of `aoinit`. -/
theorem C136_number (c : Colours) (stamp : String) (a : Args) (n : String) (h : a.verbosity = some n) (conf : Conf) (s : Said) :
    (a.debug = false → perform c fresh (command stamp a conf s) = ({ fresh with level := .text n }, false)) ∧
    (a.debug = true → a.gui = false → a.interactive = false →
      perform c fresh (command stamp a conf s) = (⟨.text n, conf.logfile, seen 3 (loading s), []⟩, false)) := by
  have hverb : a.verb = .text n := by unfold Args.verb; rw [h]
  constructor
  · intro hd
    have hc : a.chosen = .text n := by unfold Args.chosen; rw [hd, hverb]; rfl
    rw [command, hc, readParams_eq, List.cons_append, perform, act]
    simp only []
    rw [loading, List.cons_append, List.map_cons, List.cons_append, perform_text c n _ rfl]
  · intro hd hg hi
    have hc : a.chosen = .num 3 := by unfold Args.chosen; rw [hd]; rfl
    have hv : (a.conf conf).verbosity = .text n := by unfold Args.conf; rw [hg, hverb]; rfl
    rw [command_eq stamp a conf s (by rw [hg, hi]; rfl), hc, hv, perform, act]
    simp only []
    rw [perform_append, perform_says c 3 _ _ rfl]
    simp only [if_true]
    rw [perform, act]
    simp only []
    rw [perform, act]
    simp only []
    rw [running, List.cons_append, List.map_cons, perform_text c n _ rfl]
    have h0 : ∀ k ms, logged c none k ms = [] := fun _ _ => rfl
    simp [fresh, h0]

/-- **C136 (when the program does as asked).** Without `-V`: with `-d` in the GUI, and without `-d` if the configuration file says 2.  Missing: everything else, see `C136_violated`. -/
theorem C136_honoured_partial (a : Args) (h : a.verbosity = none) (hi : (!a.gui && a.interactive) = false) (conf : Conf)
    (hok : (a.debug = true ∧ a.gui = true) ∨ (a.debug = false ∧ conf.verbosity = .num 2)) : Honoured a conf := by
  intro n hn c stamp s
  rw [C136_command c stamp a h hi conf s]
  refine ⟨seen (if a.debug then 3 else 2) (loading s), ?_⟩
  have hn' : (if a.gui && a.debug then 3 else 2 : ℤ) = n := by
    rcases hok with ⟨hd, hg⟩ | ⟨hd, hc⟩
    · rw [asked, hd] at hn
      simp only [if_true] at hn
      rw [hd, hg, ← Option.some.inj hn]
      rfl
    · rw [asked, hd, h, hc] at hn
      simp only [Bool.false_eq_true, if_false] at hn
      rw [hd, ← Option.some.inj hn, Bool.and_false]
      rfl
  rw [hn']

/-- **C136 (violated).** `-d` on the command line, `-V 3`, and a `verbosity` of 3 or of 1 in the configuration file are not honoured. -/
theorem C136_violated :
    (∀ conf : Conf, ¬ Honoured ⟨none, true, false, false⟩ conf) ∧
    (∀ conf : Conf, ∀ gui, ¬ Honoured ⟨some "3", false, gui, false⟩ conf) ∧
    (∀ logfile, ¬ Honoured ⟨none, false, false, false⟩ ⟨.num 3, logfile⟩) ∧
    (∀ logfile, ¬ Honoured ⟨none, false, false, false⟩ ⟨.num 1, logfile⟩) := by
  have key : ∀ (l₁ l₂ : List String) (b : List String) (m m' : String), m ≠ m' → l₁ ++ [m] ≠ b ++ (l₂ ++ [m']) := by
    intro l₁ l₂ b m m' hm h
    rw [← List.append_assoc] at h
    exact hm (by simpa using (List.append_inj' h rfl).2)
  refine ⟨?_, ?_, ?_, ?_⟩
  · intro conf h
    obtain ⟨b, hb⟩ := h 3 rfl (fun _ => "") "" ⟨[], [], [⟨3, "a", "detail"⟩]⟩
    rw [C136_command _ _ _ rfl rfl] at hb
    exact key ["simulation.py -> readParams: Loading configuration file...", "simulation.py -> readParams: Loading configuration file... success!"]
      ["simulation.py -> aoinit: Starting Sim: "] b "Starting Sim: " "a: detail" (by decide) hb
  · intro conf gui h
    obtain ⟨b, hb⟩ := h 3 rfl (fun _ => "") "" ⟨[], [], []⟩
    rw [(C136_number _ _ _ "3" rfl _ _).1 rfl] at hb
    have : seen 3 (running "" ⟨[], [], []⟩) = ["simulation.py -> aoinit: Starting Sim: "] := by decide
    rw [this] at hb
    exact absurd hb.symm (by simp [fresh])
  · intro lf h
    obtain ⟨b, hb⟩ := h 3 rfl (fun _ => "") "" ⟨[], [], [⟨3, "a", "detail"⟩]⟩
    rw [C136_command _ _ _ rfl rfl] at hb
    exact key ["Loading configuration file...", "Loading configuration file... success!"]
      ["simulation.py -> aoinit: Starting Sim: "] b "Starting Sim: " "a: detail" (by decide) hb
  · intro lf h
    obtain ⟨b, hb⟩ := h 1 rfl (fun _ => "") "" ⟨[], [], [⟨1, "a", "careful"⟩, ⟨2, "a", "news"⟩]⟩
    rw [C136_command _ _ _ rfl rfl] at hb
    exact key ["Loading configuration file...", "Loading configuration file... success!", "Starting Sim: ", "a: careful"]
      [] b "news" "a: careful" (by decide) hb

/-- **C136 (two simulations, violated).** The level belongs to the program, not to the simulation: of two simulations made together with their own `verbosity` both speak at the level of the one that was initialised last. -/
theorem C136_shared_violated (c : Colours) (stamp : String) (conf₁ conf₂ : Conf) (v₁ v₂ : ℤ) (h₁ : conf₁.verbosity = .num v₁) (h₂ : conf₂.verbosity = .num v₂) (init₁ init₂ run₁ : List Msg) :
    (perform c fresh (aoinit stamp conf₁ ⟨[], init₁, []⟩ ++ (aoinit stamp conf₂ ⟨[], init₂, []⟩ ++ run₁.map .say))).1.printed =
      seen v₁ (running stamp ⟨[], init₁, []⟩) ++ (seen v₂ (running stamp ⟨[], init₂, []⟩) ++ seen v₂ run₁) := by
  have e : ∀ (conf : Conf) (i : List Msg), aoinit stamp conf ⟨[], i, []⟩ = .level conf.verbosity :: .file conf.logfile :: (running stamp ⟨[], i, []⟩).map .say := by
    intro conf i
    simp [aoinit, running]
  have p : ∀ (g : Log) (conf : Conf) (v : ℤ) (_ : conf.verbosity = .num v) (i : List Msg), perform c g (aoinit stamp conf ⟨[], i, []⟩) =
      (⟨.num v, conf.logfile, g.printed ++ seen v (running stamp ⟨[], i, []⟩), g.written ++ logged c conf.logfile v (running stamp ⟨[], i, []⟩)⟩, true) := by
    intro g conf v hv i
    rw [e, perform, act]
    simp only []
    rw [perform, act]
    simp only []
    rw [perform_says c v _ _ hv, hv]
  rw [perform_append, p fresh conf₁ v₁ h₁]
  simp only [if_true]
  rw [perform_append, p _ conf₂ v₂ h₂]
  simp only [if_true]
  rw [perform_says c v₂ _ _ rfl]
  simp [fresh]

example : ∃ conf : Conf, conf.verbosity = .num 3 ∧ (perform (fun _ => "") fresh (script "now" conf ⟨[], [⟨2, "a", "WFS"⟩], [⟨3, "b", "x"⟩]⟩)).1.written =
    [("log", "simulation.py -> aoinit: Starting Sim: now"), ("log", "a: WFS"), ("log", "b: x")] := ⟨⟨.num 3, some "log"⟩, rfl, by decide⟩
example : (perform (fun _ => "") fresh (command "now" ⟨none, false, false, false⟩ ⟨.num 0, none⟩ ⟨[], [], [⟨1, "b", "w"⟩]⟩)).1.printed =
    ["Loading configuration file...", "Loading configuration file... success!", "Starting Sim: now", "b: w"] := by decide
example : fresh.level = .num 1 := rfl

end Soapy.Props
