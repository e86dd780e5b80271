import Verif.Log.ConsoleModel
import Verif.SimDef.WriterProps

/-! # C83: console output, console log files, Monte Carlo log -/

namespace Mapleaf.Console

open Mapleaf Mapleaf.Motion

/-- Lines as text: every line with its end -/
def textOf (ss : List Str) : Str := (ss.map (fun s => s ++ ['\n'])).flatten

theorem textOf_append (a b : List Str) : textOf (a ++ b) = textOf a ++ textOf b := by simp [textOf]

theorem newline : "\n".toList = ['\n'] := by decide +kernel

/-! ## Loggers -/

/-- **C83** `writeLine` without message writes the message put together with a line end and starts a new one; the terminal
gets it exactly if the logger writes to the terminal. -/
theorem writeLine_spec (l : Logger) (term : List Str) :
    (l.writeLine term none).1 = ⟨l.log ++ [l.current ++ ['\n']], [], l.echo⟩ ∧
    (l.writeLine term none).2 = (if l.echo then term ++ [l.current ++ ['\n']] else term) ∧
    (∀ m, l.addToLine m = ⟨l.log, l.current ++ m, l.echo⟩) := by
  simp only [Logger.writeLine, Logger.write, newline, Logger.addToLine]
  exact ⟨trivial, trivial, fun _ => trivial⟩

/-- **C83 violated.** `writeLine` with a message writes no line end. -/
theorem writeLine_violated (l : Logger) (term : List Str) (m : Str) :
    (l.writeLine term (some m)).1.log.flatten = l.log.flatten ++ m := by
  simp [Logger.writeLine, Logger.write]

/-- **C83** A log is written to a new file, or over an existing one if asked to; an existing file is kept otherwise. -/
theorem writeToFile_spec (l : Logger) (overwrite : Bool) (old : Option Str) :
    l.writeToFile overwrite old = if overwrite = false ∧ old ≠ none then old else some l.log.flatten := by
  unfold Logger.writeToFile
  cases overwrite <;> cases old <;> simp

/-! ## Printing -/

/-- From `w` to `w'` only logger `i` and the terminal changed: the log got the text `a`, the terminal the text `b`; `e` and
`e'`: whether the logger writes to the terminal, before and after -/
def Moves (i : Nat) (e e' : Bool) (a b : Str) (w w' : World) : Prop :=
  w.stdout = some i ∧ w'.stdout = some i ∧ w'.loggers.length = w.loggers.length ∧
  (∀ j : ℕ, j ≠ i → w'.loggers[j]? = w.loggers[j]?) ∧ w'.term.flatten = w.term.flatten ++ b ∧
  ∃ l l', w.loggers[i]? = some l ∧ w'.loggers[i]? = some l' ∧ l.echo = e ∧ l'.echo = e' ∧
    l'.log.flatten = l.log.flatten ++ a ∧ l'.current = l.current

/-- From `w` to `w'` only the terminal changed: it got the text `b` -/
def Plain (b : Str) (w w' : World) : Prop :=
  w.stdout = none ∧ w'.stdout = none ∧ w'.loggers = w.loggers ∧ w'.term.flatten = w.term.flatten ++ b

theorem Moves.trans {i : Nat} {e e1 e2 : Bool} {a a' b b' : Str} {w w1 w2 : World} (h : Moves i e e1 a b w w1)
    (h' : Moves i e1 e2 a' b' w1 w2) : Moves i e e2 (a ++ a') (b ++ b') w w2 := by
  obtain ⟨h1, _, h3, h4, h5, l, l1, k1, k2, k3, k4, k5, k6⟩ := h
  obtain ⟨_, g2, g3, g4, g5, l1', l2, m1, m2, m3, m4, m5, m6⟩ := h'
  rw [k2] at m1
  cases m1
  refine ⟨h1, g2, by rw [g3, h3], fun j hj => by rw [g4 j hj, h4 j hj], by rw [g5, h5]; simp, l, l2, k1, m2, k3, m4, ?_, ?_⟩
  · rw [m5, k5]; simp
  · rw [m6, k6]

theorem emit_moves {i : Nat} {w : World} {l : Logger} (h : w.stdout = some i) (hl : w.loggers[i]? = some l) (m : Str) :
    Moves i l.echo l.echo m (if l.echo then m else []) w (emit w m) := by
  have hi := (List.getElem?_eq_some_iff.1 hl).1
  have he : emit w m = { w with loggers := w.loggers.set i (l.write w.term m).1, term := (l.write w.term m).2 } := by
    unfold emit
    rw [h]
    dsimp only
    rw [hl]
  rw [he]
  refine ⟨h, h, by simp, fun j hj => ?_, ?_, l, (l.write w.term m).1, hl, ?_, rfl, rfl, ?_, rfl⟩
  · dsimp only; rw [List.getElem?_set_ne (Ne.symm hj)]
  · dsimp only [Logger.write]
    by_cases h : l.echo = true <;> simp [h]
  · dsimp only; rw [List.getElem?_set_self hi]
  · simp [Logger.write]

theorem print_moves {i : Nat} {w : World} {l : Logger} (h : w.stdout = some i) (hl : w.loggers[i]? = some l) (s : Str) :
    Moves i l.echo l.echo (s ++ ['\n']) (if l.echo then s ++ ['\n'] else []) w (print w s) := by
  have h1 := emit_moves h hl s
  obtain ⟨_, g2, _, _, _, l0, l1, k1, k2, k3, k4, _⟩ := id h1
  have h2 := emit_moves g2 k2 "\n".toList
  rw [newline] at h2
  rw [k4] at h2
  have := h1.trans h2
  unfold print
  rw [newline]
  by_cases he : l.echo = true
  · simpa [he] using this
  · simpa [he] using this

theorem moves_refl {i : Nat} {w : World} {l : Logger} (h : w.stdout = some i) (hl : w.loggers[i]? = some l) :
    Moves i l.echo l.echo [] [] w w := ⟨h, h, rfl, fun _ _ => rfl, by simp, l, l, hl, hl, rfl, rfl, by simp, rfl⟩

/-- **C83** While a logger is installed, everything printed goes to its log, in order; to the terminal exactly if the logger
writes to the terminal; to no other log. -/
theorem prints_logged {i : Nat} {w : World} {l : Logger} (h : w.stdout = some i) (hl : w.loggers[i]? = some l) (ss : List Str) :
    Moves i l.echo l.echo (textOf ss) (if l.echo then textOf ss else []) w (prints w ss) := by
  induction ss generalizing w l with
  | nil => simpa [textOf, prints] using moves_refl h hl
  | cons s ss ih =>
    have h1 := print_moves h hl s
    obtain ⟨_, g2, _, _, _, l0, l1, k1, k2, k3, k4, _⟩ := id h1
    have h2 := ih g2 k2
    rw [k4] at h2
    have := h1.trans h2
    have e : prints w (s :: ss) = prints (print w s) ss := rfl
    rw [e]
    by_cases he : l.echo = true
    · simpa [he, textOf] using this
    · simpa [he, textOf] using this

theorem print_plain {w : World} (h : w.stdout = none) (s : Str) : Plain (s ++ ['\n']) w (print w s) := by
  have he : ∀ (w : World) (m : Str), w.stdout = none → emit w m = { w with term := w.term ++ [m] } := by
    intro w m h; unfold emit; rw [h]
  unfold print
  rw [he w s h, he { w with term := w.term ++ [s] } _ h]
  refine ⟨h, h, rfl, ?_⟩
  rw [newline]
  simp

/-- **C83** Without logger everything printed goes to the terminal, and to no log. -/
theorem prints_plain {w : World} (h : w.stdout = none) (ss : List Str) : Plain (textOf ss) w (prints w ss) := by
  induction ss generalizing w with
  | nil => exact ⟨h, h, rfl, by simp [textOf, prints]⟩
  | cons s ss ih =>
    obtain ⟨_, g2, g3, g4⟩ := print_plain h s
    obtain ⟨_, k2, k3, k4⟩ := ih g2
    have e : prints w (s :: ss) = prints (print w s) ss := rfl
    rw [e]
    exact ⟨h, k2, by rw [k3, g3], by rw [k4, g4]; simp [textOf]⟩

theorem addToLog_moves {i : Nat} {w : World} {l : Logger} (h : w.stdout = some i) (hl : w.loggers[i]? = some l) (ls : List Str) :
    Moves i l.echo l.echo ls.flatten [] w (addToLog w ls) := by
  have hi := (List.getElem?_eq_some_iff.1 hl).1
  unfold addToLog
  rw [h]
  dsimp only
  rw [hl]
  refine ⟨h, rfl, by simp, fun j hj => ?_, by simp, l, { l with log := l.log ++ ls }, hl, ?_, rfl, rfl, by simp, rfl⟩
  · dsimp only; rw [List.getElem?_set_ne (Ne.symm hj)]
  · dsimp only; rw [List.getElem?_set_self hi]

theorem setEcho_moves {i : Nat} {w : World} {l : Logger} (h : w.stdout = some i) (hl : w.loggers[i]? = some l) (b : Bool) :
    Moves i l.echo b [] [] w (setEcho w b) := by
  have hi := (List.getElem?_eq_some_iff.1 hl).1
  unfold setEcho
  rw [h]
  dsimp only
  rw [hl]
  refine ⟨h, rfl, by simp, fun j hj => ?_, by simp, l, { l with echo := b }, hl, ?_, rfl, rfl, by simp, rfl⟩
  · dsimp only; rw [List.getElem?_set_ne (Ne.symm hj)]
  · dsimp only; rw [List.getElem?_set_self hi]

theorem Moves.logText {i : Nat} {e e' : Bool} {a b : Str} {w w' : World} {l : Logger} (h : Moves i e e' a b w w')
    (hl : w.loggers[i]? = some l) : logText w' = l.log.flatten ++ a := by
  obtain ⟨_, h2, _, _, _, l0, l', k1, k2, _, _, k5, _⟩ := h
  rw [hl] at k1
  cases k1
  unfold Console.logText
  rw [h2]
  dsimp only
  rw [k2]
  simpa using k5

/-! ## A simulation -/

/-- The information about the system printed by a simulation: nothing, if the last call asked for the same -/
def infoText (c : InfoCache) (info : List Str) : Str :=
  match c with
  | some (true, _) => []
  | _ => textOf info

/-- What is printed before the simulation starts -/
def usingLine (s : Session) : Str := "# Using sim definition file: ".toList ++ s.file ++ ['\n']

/-- The simulation definition and the default values, as they appear in the log -/
def dumpText (s : Session) : Str :=
  "\n---- Start Sim Definition File ----\n".toList ++ s.text ++ "\n---- End Sim Definition File ----\n\n".toList
    ++ "\n---- Start Default Value Dictionary ----\n".toList ++ s.defaults ++ "\n---- End Default Value Dictionary ----\n\n".toList

/-- The heading of the table -/
def startText : Str := textOf ["Starting Simulation:".toList, "Time(s) Altitude(m,ASL)".toList]

/-- What is printed when the steps are done, or one has failed -/
def endText (s : Session) : Str :=
  match s.crash with
  | none => textOf ["Simulation Complete".toList]
  | some _ => textOf ["ERROR: Simulation Crashed, Aborting".toList, "Attempting to save log files and show plots".toList]

/-- What is printed after the files are written -/
def afterText (s : Session) : Str :=
  textOf s.unused ++ match s.crash with
    | none => []
    | some trace => textOf ["Attempting to show stack trace".toList, trace, "Exiting".toList]

theorem getSystemInfo_moves {i : Nat} {w : World} {l : Logger} (h : w.stdout = some i) (hl : w.loggers[i]? = some l)
    (c : InfoCache) (info : List Str) :
    Moves i l.echo l.echo (infoText c info) (if l.echo then infoText c info else []) w (getSystemInfo w c true info).1 ∧
      ∃ v, (getSystemInfo w c true info).2.1 = some (true, v) := by
  unfold getSystemInfo infoText
  rcases c with _ | ⟨_ | _, v⟩
  · exact ⟨by simpa using prints_logged h hl info, _, rfl⟩
  · exact ⟨by simpa using prints_logged h hl info, _, rfl⟩
  · exact ⟨by simpa using moves_refl h hl, _, rfl⟩

theorem singletons_flatten (t : Str) : (t.map (fun c => [c])).flatten = t := by
  induction t with
  | nil => rfl
  | cons c t ih => simpa using ih

theorem Moves.cong {i : Nat} {e e' : Bool} {a a' b b' : Str} {w w' : World} (h : Moves i e e' a b w w') (ha : a = a')
    (hb : b = b') : Moves i e e' a' b' w w' := by subst ha hb; exact h

/-- The loggers before a simulation with console log, and its own logger -/
theorem install_at (w : World) (b : Bool) :
    (install w b).stdout = some w.loggers.length ∧ (install w b).loggers[w.loggers.length]? = some ⟨[], [], b⟩ ∧
    (install w b).term = w.term ∧ ∀ j : ℕ, j < w.loggers.length → (install w b).loggers[j]? = w.loggers[j]? := by
  refine ⟨rfl, by simp [install], rfl, fun j hj => ?_⟩
  simp only [install]
  rw [List.getElem?_append_left hj]

theorem dump_flatten (a b c d e t : Str) :
    ([a] ++ t.map (fun c => [c]) ++ [b] ++ [c, d, e]).flatten = a ++ t ++ b ++ c ++ d ++ e := by
  simp [singletons_flatten]

theorem echo_three (b : Bool) (x y z : Str) :
    (((if (!b) = true then x else []) ++ (if (!b) = true then y else [])) ++ [] ++ if (!b) = true then z else []) =
      if b = true then [] else x ++ y ++ z := by
  cases b <;> simp

theorem setUp_moves (s : Session) (w : World) (c : InfoCache) (hlev : 0 < s.level) :
    Moves w.loggers.length (!s.silent) (!s.silent) (infoText c s.info ++ usingLine s ++ dumpText s ++ startText)
      (if s.silent then [] else infoText c s.info ++ usingLine s ++ startText) (install w (!s.silent)) (setUp s w c).1 ∧
    ∃ v, (setUp s w c).2 = some (true, v) := by
  obtain ⟨hs, hl, _, _⟩ := install_at w (!s.silent)
  obtain ⟨m1, hv⟩ := getSystemInfo_moves hs hl c s.info
  obtain ⟨_, g2, _, _, _, _, l1, _, k2, _, k4, _⟩ := id m1
  have m2 := print_moves g2 k2 ("# Using sim definition file: ".toList ++ s.file)
  rw [k4] at m2
  obtain ⟨_, g3, _, _, _, _, l2, _, k3, _, k5, _⟩ := id m2
  have m3 := addToLog_moves g3 k3 (definitionDump (getSystemInfo (install w (!s.silent)) c true s.info).1 s.file s.text s.defaults
    false).2
  rw [k5] at m3
  obtain ⟨_, g4, _, _, _, _, l3, _, k6, _, k7, _⟩ := id m3
  have m4 := prints_logged g4 k6 ["Starting Simulation:".toList, "Time(s) Altitude(m,ASL)".toList]
  rw [k7] at m4
  have m := ((m1.trans m2).trans m3).trans m4
  have hd : (definitionDump (getSystemInfo (install w (!s.silent)) c true s.info).1 s.file s.text s.defaults false).2.flatten
      = dumpText s := by
    exact dump_flatten _ _ _ _ _ _
  have hset : (setUp s w c).1 = prints (addToLog (print (getSystemInfo (install w (!s.silent)) c true s.info).1
      ("# Using sim definition file: ".toList ++ s.file))
      (definitionDump (getSystemInfo (install w (!s.silent)) c true s.info).1 s.file s.text s.defaults false).2)
      ["Starting Simulation:".toList, "Time(s) Altitude(m,ASL)".toList] ∧
      (setUp s w c).2 = (getSystemInfo (install w (!s.silent)) c true s.info).2.1 := by
    unfold setUp
    rw [if_pos hlev]
    simp only [definitionDump, Bool.false_eq_true, if_false]
    exact ⟨trivial, trivial⟩
  rw [hset.1, hset.2]
  refine ⟨m.cong ?_ ?_, hv⟩
  · rw [hd]; rfl
  · exact echo_three _ _ _ _

/-- The lines of `endText` -/
def endLines (s : Session) : List Str :=
  match s.crash with
  | none => ["Simulation Complete".toList]
  | some _ => ["ERROR: Simulation Crashed, Aborting".toList, "Attempting to save log files and show plots".toList]

/-- The lines printed last after a crash -/
def traceLines (s : Session) : List Str :=
  match s.crash with
  | none => []
  | some trace => ["Attempting to show stack trace".toList, trace, "Exiting".toList]

/-- The world before the end of the simulation is announced -/
def flown (s : Session) (w : World) (c : InfoCache) : World :=
  let w := if s.timed ∧ 0 < s.level then setEcho (setUp s w c).1 false else (setUp s w c).1
  let w := prints w s.during
  if s.timed ∧ s.silent = false then setEcho w true else w

theorem session_form (s : Session) (w : World) (c : InfoCache) :
    session s w c = (prints (postProcess s (prints (flown s w c) (endLines s))).1 (traceLines s), (setUp s w c).2,
      (postProcess s (prints (flown s w c) (endLines s))).2, if s.crash = none then none else some 0) := by
  obtain ⟨level, silent, timed, info, file, text, defaults, during, crash, used, writing, path, unused⟩ := s
  cases crash with
  | none => rfl
  | some t => rfl

theorem endText_lines (s : Session) : textOf (endLines s) = endText s := by
  unfold endText endLines
  cases s.crash <;> rfl

theorem afterText_lines (s : Session) : afterText s = textOf s.unused ++ textOf (traceLines s) := by
  unfold afterText traceLines
  cases s.crash <;> rfl

theorem prints_step {i : Nat} {e e1 : Bool} {a b : Str} {w w1 : World} (h : Moves i e e1 a b w w1) (ss : List Str) :
    Moves i e e1 (a ++ textOf ss) (b ++ if e1 then textOf ss else []) w (prints w1 ss) := by
  obtain ⟨_, g2, _, _, _, _, l1, _, k2, _, k4, _⟩ := id h
  have := prints_logged g2 k2 ss
  rw [k4] at this
  exact h.trans this

theorem setEcho_step {i : Nat} {e e1 : Bool} {a b : Str} {w w1 : World} (h : Moves i e e1 a b w w1) (x : Bool) :
    Moves i e x a b w (setEcho w1 x) := by
  obtain ⟨_, g2, _, _, _, _, l1, _, k2, _, k4, _⟩ := id h
  have := setEcho_moves g2 k2 x
  rw [k4] at this
  exact (h.trans this).cong (by simp) (by simp)

theorem postProcess_step {i : Nat} {e e1 : Bool} {a b : Str} {w w1 : World} {l : Logger} (s : Session)
    (h : Moves i e e1 a b w w1) (hl : w.loggers[i]? = some l) (h0 : l.log = []) :
    Moves i e e1 (a ++ textOf s.used ++ (if 0 < s.level then textOf (s.writing ++ ["Writing log file: ".toList ++ s.path]) else [])
        ++ textOf s.unused)
      (b ++ if e1 then textOf s.used ++ (if 0 < s.level then textOf (s.writing ++ ["Writing log file: ".toList ++ s.path]) else [])
        ++ textOf s.unused else []) w (postProcess s w1).1 ∧
    (postProcess s w1).2 = if 0 < s.level then
      some (a ++ textOf s.used ++ textOf (s.writing ++ ["Writing log file: ".toList ++ s.path])) else none := by
  unfold postProcess
  generalize "Writing log file: ".toList ++ s.path = line
  have m1 := prints_step h s.used
  by_cases hlev : 0 < s.level
  · simp only [if_pos hlev]
    have m2 := prints_step m1 (s.writing ++ [line])
    have m3 := prints_step m2 s.unused
    refine ⟨m3.cong rfl ?_, ?_⟩
    · cases e1 <;> simp
    · rw [m2.logText hl, h0]
      simp
  · simp only [if_neg hlev]
    have m3 := prints_step m1 s.unused
    refine ⟨m3.cong (by simp) ?_, trivial⟩
    cases e1 <;> simp

/-- **C83** A simulation with a console log writes the file described: system information, name of the definition file, the
definition and the default values, heading, all that is printed during the flight, how it ended, the default values used, and
the names of the files written. Unless it is silent the terminal shows the same, without definition and default values, and
without the flight if its end is given as a time; and the unused keys. No other log gets anything. -/
theorem session_logged (s : Session) (w : World) (c : InfoCache) (hlev : 0 < s.level) :
    (session s w c).2.2.1 = some (infoText c s.info ++ usingLine s ++ dumpText s ++ startText ++ textOf s.during ++ endText s
      ++ textOf s.used ++ textOf (s.writing ++ ["Writing log file: ".toList ++ s.path])) ∧
    (session s w c).1.term.flatten = w.term.flatten ++ (if s.silent then [] else
      infoText c s.info ++ usingLine s ++ startText ++ (if s.timed then [] else textOf s.during) ++ endText s
      ++ textOf s.used ++ textOf (s.writing ++ ["Writing log file: ".toList ++ s.path]) ++ afterText s) ∧
    (session s w c).1.stdout = some w.loggers.length ∧
    (∀ j : ℕ, j < w.loggers.length → (session s w c).1.loggers[j]? = w.loggers[j]?) ∧
    (∃ l, (session s w c).1.loggers[w.loggers.length]? = some l ∧ l.echo = !s.silent) ∧
    (∃ v, (session s w c).2.1 = some (true, v)) := by
  obtain ⟨hs, hl, ht, ho⟩ := install_at w (!s.silent)
  obtain ⟨m1, hv⟩ := setUp_moves s w c hlev
  have m4 : Moves w.loggers.length (!s.silent) (!s.silent)
      (infoText c s.info ++ usingLine s ++ dumpText s ++ startText ++ textOf s.during)
      (if s.silent then [] else infoText c s.info ++ usingLine s ++ startText ++ (if s.timed then [] else textOf s.during))
      (install w (!s.silent)) (flown s w c) := by
    generalize infoText c s.info ++ usingLine s ++ dumpText s ++ startText = A at m1 ⊢
    generalize infoText c s.info ++ usingLine s ++ startText = B at m1 ⊢
    by_cases htm : s.timed = true
    · have m2 := setEcho_step m1 false
      have m3 := prints_step m2 s.during
      cases hsil : s.silent with
      | false =>
        have e : flown s w c = setEcho (prints (setEcho (setUp s w c).1 false) s.during) true := by
          simp only [flown, htm, hlev, hsil, and_self, if_true]
        rw [e]
        rw [hsil] at m3
        refine (setEcho_step m3 true).cong rfl ?_
        simp [htm]
      | true =>
        have e : flown s w c = prints (setEcho (setUp s w c).1 false) s.during := by
          simp only [flown, htm, hlev, hsil, and_self, if_true, Bool.true_eq_false, and_false, if_false]
        rw [e]
        rw [hsil] at m3
        refine m3.cong rfl ?_
        simp
    · have e : flown s w c = prints (setUp s w c).1 s.during := by
        simp only [flown, htm, Bool.false_eq_true, false_and, if_false]
      rw [e]
      have m3 := prints_step m1 s.during
      refine m3.cong rfl ?_
      cases s.silent <;> simp [htm]
  have m5 := prints_step m4 (endLines s)
  obtain ⟨m6, hf⟩ := postProcess_step s m5 hl rfl
  have m7 := prints_step m6 (traceLines s)
  rw [session_form]
  dsimp only
  rw [endText_lines] at hf m7
  rw [if_pos hlev] at hf
  refine ⟨hf, ?_, m7.2.1, fun j hj => ?_, ?_, hv⟩
  · obtain ⟨_, _, _, _, h5, _⟩ := m7
    rw [h5, ht, if_pos hlev, afterText_lines]
    congr 1
    generalize textOf (s.writing ++ ["Writing log file: ".toList ++ s.path]) = C
    generalize infoText c s.info ++ usingLine s ++ startText = B
    cases s.silent <;> simp
  · rw [m7.2.2.2.1 j (by omega), ho j hj]
  · obtain ⟨_, _, _, _, _, _, l', _, k2, _, k4, _⟩ := m7
    exact ⟨l', k2, k4⟩

/-- **C83** A simulation without console log writes no file. Unless it is silent everything but system information and heading
goes to the terminal, if no logger is left from before. A silent one shows nothing. -/
theorem session_unlogged (s : Session) (w : World) (c : InfoCache) (hlev : ¬ 0 < s.level) :
    (session s w c).2.2.1 = none ∧ (session s w c).2.1 = c ∧
    (s.silent = false → w.stdout = none → (session s w c).1.stdout = none ∧ (session s w c).1.loggers = w.loggers ∧
      (session s w c).1.term.flatten = w.term.flatten ++ (textOf s.during ++ endText s ++ textOf s.used ++ afterText s)) ∧
    (s.silent = true → (session s w c).1.term.flatten = w.term.flatten ∧
      (session s w c).1.stdout = some w.loggers.length ∧
      ∃ l, (session s w c).1.loggers[w.loggers.length]? = some l ∧ l.echo = false) := by
  rw [session_form]
  dsimp only
  have hset : setUp s w c = if s.silent then (install w false, c) else (w, c) := by
    unfold setUp
    rw [if_neg hlev]
  have hfl : flown s w c = if s.timed ∧ s.silent = false then setEcho (prints (setUp s w c).1 s.during) true
      else prints (setUp s w c).1 s.during := by
    simp only [flown, hlev, and_false, if_false]
  refine ⟨?_, ?_, fun hsil h0 => ?_, fun hsil => ?_⟩
  · unfold postProcess
    dsimp only
    rw [if_neg hlev]
  · rw [hset]
    cases s.silent <;> rfl
  · rw [hsil] at hset
    have hset' : (setUp s w c).1 = w := by rw [hset]; rfl
    rw [hset', hsil] at hfl
    obtain ⟨_, a2, a3, a4⟩ := prints_plain h0 s.during
    have hse : ∀ (w : World) (b : Bool), w.stdout = none → setEcho w b = w := by
      intro w b h; unfold setEcho; rw [h]
    have hfl' : flown s w c = prints w s.during := by
      rw [hfl, hse _ _ a2]
      split <;> rfl
    rw [hfl']
    have hp : ∀ w, (postProcess s w).1 = prints (prints w s.used) s.unused := by
      intro w
      unfold postProcess
      dsimp only
      rw [if_neg hlev]
    rw [hp]
    obtain ⟨_, b2, b3, b4⟩ := prints_plain a2 (endLines s)
    obtain ⟨_, c2, c3, c4⟩ := prints_plain b2 s.used
    obtain ⟨_, d2, d3, d4⟩ := prints_plain c2 s.unused
    obtain ⟨_, e2, e3, e4⟩ := prints_plain d2 (traceLines s)
    refine ⟨e2, by rw [e3, d3, c3, b3, a3], ?_⟩
    rw [e4, d4, c4, b4, a4, endText_lines, afterText_lines]
    simp only [List.append_assoc]
  · rw [hsil] at hset
    have hset' : (setUp s w c).1 = install w false := by rw [hset]; rfl
    rw [hset', hsil, if_neg (by simp)] at hfl
    rw [hfl]
    obtain ⟨hs, hl, ht, ho⟩ := install_at w false
    have m3 := prints_logged hs hl s.during
    have m5 := prints_step m3 (endLines s)
    obtain ⟨m6, hf⟩ := postProcess_step s m5 hl rfl
    have m7 := prints_step m6 (traceLines s)
    obtain ⟨_, h2, _, _, h5, _, l', _, k2, _, k4, _⟩ := m7
    refine ⟨?_, h2, l', k2, k4⟩
    rw [h5, ht]
    simp

/-- A simulation printing one line -/
def shortRun (crash : Option Str) (silent : Bool) : Session :=
  ⟨2, silent, false, ["MAPLEAF".toList], "a.mapleaf".toList, [], [], ["0.0 10.0".toList], crash, [], [], "log.txt".toList, []⟩

example : 0 < (shortRun none false).level ∧ (shortRun none false).silent = false := by decide +kernel

/-- **C83 violated.** After a simulation with console log the log of the simulation still receives everything printed; after a
silent one nothing printed later is shown on the terminal. -/
theorem stdout_violated (s : Session) (w : World) (c : InfoCache) (hlev : 0 < s.level) (later : List Str) :
    (session s w c).1.stdout = some w.loggers.length ∧
    (∃ l l', (session s w c).1.loggers[w.loggers.length]? = some l ∧
      (prints (session s w c).1 later).loggers[w.loggers.length]? = some l' ∧ l'.log.flatten = l.log.flatten ++ textOf later) ∧
    (s.silent = true → (prints (session s w c).1 later).term.flatten = (session s w c).1.term.flatten) := by
  obtain ⟨_, _, h3, _, ⟨l, h5, h6⟩, _⟩ := session_logged s w c hlev
  have m := prints_logged h3 h5 later
  obtain ⟨_, _, _, _, g5, l0, l', k1, k2, k3, k4, k5, _⟩ := m
  rw [h5] at k1
  cases k1
  refine ⟨h3, ⟨l, l', h5, k2, k5⟩, fun hsil => ?_⟩
  rw [g5, h6, hsil]
  simp

/-- **C83 violated.** A logger installed before a simulation with console log (that of a batch run) gets nothing of what the
simulation prints. -/
theorem nested_violated (s : Session) (w : World) (c : InfoCache) (hlev : 0 < s.level) (echo : Bool) :
    logText (install w echo) = [] ∧
    (session s (install w echo) c).1.loggers[w.loggers.length]? = some ⟨[], [], echo⟩ := by
  obtain ⟨_, hl, _, _⟩ := install_at w echo
  obtain ⟨_, _, _, h4, _, _⟩ := session_logged s (install w echo) c hlev
  refine ⟨?_, ?_⟩
  · unfold logText
    simp [install]
  · rw [h4 _ (by simp [install]), hl]

/-- **C83 violated.** Of two simulations with console log in one process, the second log says nothing about the system,
whatever is to be said. -/
theorem system_info_violated (s s' : Session) (w : World) (c : InfoCache) (hlev : 0 < s.level) (hlev' : 0 < s'.level)
    (info : List Str) :
    (session s' (session s w c).1 (session s w c).2.1).2.2.1 =
      (session { s' with info := info } (session s w c).1 (session s w c).2.1).2.2.1 ∧
    ∃ t, (session s' (session s w c).1 (session s w c).2.1).2.2.1 = some ("# Using sim definition file: ".toList ++ t) := by
  obtain ⟨_, _, _, _, _, v, hv⟩ := session_logged s w c hlev
  rw [hv]
  rw [(session_logged s' (session s w c).1 (some (true, v)) hlev').1,
    (session_logged { s' with info := info } (session s w c).1 (some (true, v)) hlev').1]
  refine ⟨rfl, s'.file ++ ['\n'] ++ dumpText s' ++ startText ++ textOf s'.during ++ endText s' ++ textOf s'.used
    ++ textOf (s'.writing ++ ["Writing log file: ".toList ++ s'.path]), ?_⟩
  unfold usingLine infoText
  simp only [List.append_assoc, List.nil_append]

/-- **C83 violated.** The stack trace of a crash is not in the console log file. -/
theorem crash_trace_violated (s : Session) (w : World) (c : InfoCache) (hlev : 0 < s.level) (t t' : Str) :
    (session { s with crash := some t } w c).2.2.1 = (session { s with crash := some t' } w c).2.2.1 := by
  rw [(session_logged { s with crash := some t } w c hlev).1, (session_logged { s with crash := some t' } w c hlev).1]
  rfl

/-- **C83 violated.** A crash ends the program, with the exit status of success; nothing else does. -/
theorem exit_status_violated (s : Session) (w : World) (c : InfoCache) :
    (session s w c).2.2.2 = if s.crash = none then none else some 0 := by
  rw [session_form]

/-- **C83 violated.** Printing the definition to the console prints every character of it on a line of its own. -/
theorem dump_print_violated (w : World) (h : w.stdout = none) (file text defaults : Str) :
    (definitionDump w file text defaults true).1.term.flatten = w.term.flatten
      ++ ("# Using sim definition file: ".toList ++ file ++ ['\n']
      ++ "\n---- Start Sim Definition File ----\n".toList ++ ['\n'] ++ (text.map (fun c => [c, '\n'])).flatten
      ++ "\n---- End Sim Definition File ----\n\n".toList ++ ['\n'] ++ "\n---- Start Default Value Dictionary ----\n".toList
      ++ ['\n'] ++ defaults ++ ['\n'] ++ "\n---- End Default Value Dictionary ----\n\n".toList ++ ['\n']) := by
  unfold definitionDump
  dsimp only
  rw [if_pos rfl]
  generalize "# Using sim definition file: ".toList = x1
  generalize "\n---- Start Sim Definition File ----\n".toList = x2
  generalize "\n---- End Sim Definition File ----\n\n".toList = x3
  generalize "\n---- Start Default Value Dictionary ----\n".toList = x4
  generalize "\n---- End Default Value Dictionary ----\n\n".toList = x5
  obtain ⟨_, b2, b3, b4⟩ := print_plain h (x1 ++ file)
  obtain ⟨_, c2, c3, c4⟩ := prints_plain b2 ([x2] ++ text.map (fun c => [c]) ++ [x3] ++ [x4, defaults, x5])
  rw [c4, b4]
  have : ((fun s : Str => s ++ ['\n']) ∘ fun c : Char => [c]) = fun c => [c, '\n'] := rfl
  simp [textOf, this]

end Mapleaf.Console
