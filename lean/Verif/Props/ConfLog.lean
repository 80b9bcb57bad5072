import Verif.Model.ConfLog
import Verif.Props.Conf

/-! # C97: the log settings in force are those of the configuration -/

namespace Zinx.Props

open Zinx Zinx.Conf Zinx.ConfLog

/-- The logger works by the configuration: it writes to the configured file, or to the console if there is none, keeps files for the configured time (31 days if not set) up to the configured size (64 MiB
if not set), repeats lines on the console as configured, and suppresses the messages below the configured level. -/
structure InForce (s : ConfLog.State) : Prop where
  noFile : s.conf.logFile = "" → s.log.fw = none
  file : s.conf.logFile ≠ "" → ∃ w, s.log.fw = some w ∧ w.dir = s.conf.logDir ∧ w.file = s.conf.logFile ∧ w.cons = s.conf.logCons ∧
    (if s.conf.logSaveDays > 0 then w.maxAge = s.conf.logSaveDays else w.maxAge = 31) ∧ (if s.conf.logFileSize > 0 then w.maxSize = s.conf.logFileSize else w.maxSize = 64 * 1024 * 1024)
  level : ∀ m : Int, 0 ≤ m → (m < s.log.level ↔ m < s.conf.logIsolationLevel)

theorem init_level (g : Config) (l : Logger) : (initLogConfig g l).level = if g.logIsolationLevel > 0 then g.logIsolationLevel else l.level := by
  unfold initLogConfig
  by_cases h1 : g.logFile = "" <;> by_cases h2 : g.logSaveDays > 0 <;> by_cases h3 : g.logFileSize > 0 <;> by_cases h4 : g.logIsolationLevel > 0 <;>
    simp [h1, h2, h3, h4, Logger.setLogFile, Logger.setMaxAge, Logger.setMaxSize, Logger.setCons, Logger.setLogLevel]

theorem init_fw (g : Config) (l : Logger) (h : g.logFile ≠ "") : (initLogConfig g l).fw = some
    { dir := g.logDir, file := g.logFile, cons := g.logCons, maxAge := if g.logSaveDays > 0 then g.logSaveDays else 31, maxSize := if g.logFileSize > 0 then g.logFileSize else 1024 * 1024 * 64 } := by
  unfold initLogConfig
  by_cases h2 : g.logSaveDays > 0 <;> by_cases h3 : g.logFileSize > 0 <;> by_cases h4 : g.logIsolationLevel > 0 <;>
    simp [h, h2, h3, h4, Logger.setLogFile, Logger.setMaxAge, Logger.setMaxSize, Logger.setCons, Logger.setLogLevel] <;> omega

theorem init_noFile (g : Config) (l : Logger) (h : g.logFile = "") : (initLogConfig g l).fw = none ↔ l.fw = none := by
  unfold initLogConfig
  by_cases h2 : g.logSaveDays > 0 <;> by_cases h3 : g.logFileSize > 0 <;> by_cases h4 : g.logIsolationLevel > 0 <;>
    simp [h, h2, h3, h4, Logger.setMaxAge, Logger.setMaxSize, Logger.setLogLevel]

theorem level_same {a b : Int} : (∀ m : Int, 0 ≤ m → (m < a ↔ m < b)) ↔ (a ≤ 0 ∧ b ≤ 0) ∨ a = b := by
  constructor
  · intro h
    by_cases e : a = b
    · exact .inr e
    · refine .inl ⟨?_, ?_⟩
      · have := h 0 (by omega)
        have := h a
        have := h b
        omega
      · have := h 0 (by omega)
        have := h a
        have := h b
        omega
  · rintro (⟨_, _⟩ | rfl) m hm
    · omega
    · rfl

/-- **C97** (exact condition for `Reload`): after a `Reload` that does not panic, whatever was in force before, the logger works by the new configuration if and only if the configuration names a log file or
none was in use, and it sets a level above debug or none was in force. -/
theorem C97_reload_partial (s : ConfLog.State) (f : ConfFile) (h : (reload s f).2 = false) : InForce (reload s f).1 ↔
    ((reload s f).1.conf.logFile = "" → s.log.fw = none) ∧ ((reload s f).1.conf.logIsolationLevel ≤ 0 → s.log.level ≤ 0) := by
  have key : ∀ g : Config, InForce { conf := g, log := initLogConfig g s.log } ↔ (g.logFile = "" → s.log.fw = none) ∧ (g.logIsolationLevel ≤ 0 → s.log.level ≤ 0) := by
    intro g
    constructor
    · intro hi
      refine ⟨fun e => (init_noFile g s.log e).1 (hi.noFile e), fun e => ?_⟩
      have := level_same.1 hi.level
      dsimp only at this
      rw [init_level] at this
      split at this <;> omega
    · intro ⟨h1, h2⟩
      refine ⟨fun e => (init_noFile g s.log e).2 (h1 e), fun e => ⟨_, init_fw g s.log e, rfl, rfl, rfl, ?_, ?_⟩, level_same.2 ?_⟩
      · dsimp only; split <;> rfl
      · dsimp only; split <;> rfl
      · dsimp only
        rw [init_level]
        split <;> omega
  cases f with
  | missing => exact key s.conf
  | unreadable => cases h
  | invalid part => cases h
  | valid apply => exact key (apply s.conf)

/-- **C97** (process start): after the start of a process, with any configuration file or none, the logger works by the configuration. Missing: later changes, see `C97_reload_partial`, `C97_user_partial`. -/
theorem C97_start_partial (dir : String) (f : ConfFile) (h : (reload (initial dir) f).2 = false) : InForce (reload (initial dir) f).1 :=
  (C97_reload_partial _ f h).2 ⟨fun _ => rfl, fun _ => Int.le_refl 0⟩

/-- A file that names a log file, keeps logs for a week and turns debug messages off. -/
def weekFile : ConfFile := .valid fun g => { g with logFile := "a.log", logSaveDays := 7, logIsolationLevel := 1 }

example : InForce (reload (initial "/srv") weekFile).1 ∧ (reload (initial "/srv") weekFile).1.log = { fw := some { dir := "/srv/log", file := "a.log", maxAge := 7 }, level := 1 } :=
  ⟨C97_start_partial "/srv" weekFile rfl, by decide⟩

theorem user_log (s : ConfLog.State) (u : Config) :
    (userConf s u).log.level = (if u.logIsolationLevel > 0 then u.logIsolationLevel else s.log.level) ∧
    (userConf s u).log.fw = (if u.logFile = "" then s.log.fw else some { dir := if u.logDir = "" then s.conf.logDir else u.logDir, file := u.logFile }) ∧
    (userConf s u).conf.logDir = (if u.logDir = "" then s.conf.logDir else u.logDir) ∧ (userConf s u).conf.logFile = (if u.logFile = "" then s.conf.logFile else u.logFile) := by
  simp only [userConf, userConfToGlobal, setIf_get Config.logDir, setIf_get Config.logFile, ite_self]
  by_cases h1 : u.logIsolationLevel > 0 <;> by_cases h2 : u.logFile = "" <;> by_cases h3 : u.logDir = "" <;> simp [h1, h2, h3, effect, Logger.setLogLevel, Logger.setLogFile]

/-- **C97** (exact condition for a user configuration): when the logger works by the configuration and a user configuration is applied, it works by the new configuration if and only if
* the user sets a log level above debug or none was in force, and
* the user names no log file, and either no other log directory or no log file is in use; or the user names a log file, and no retention time, file size or console output are configured (or just the values in force without). -/
theorem C97_user_partial (s : ConfLog.State) (u : Config) (h : InForce s) : InForce (userConf s u) ↔
    (u.logIsolationLevel ≤ 0 → s.conf.logIsolationLevel ≤ 0) ∧
    (u.logFile = "" → u.logDir = "" ∨ u.logDir = s.conf.logDir ∨ s.conf.logFile = "") ∧
    (u.logFile ≠ "" → (s.conf.logSaveDays ≤ 0 ∨ s.conf.logSaveDays = 31) ∧ (s.conf.logFileSize ≤ 0 ∨ s.conf.logFileSize = 64 * 1024 * 1024) ∧ s.conf.logCons = false) := by
  obtain ⟨hl, hf, hd, hn⟩ := user_log s u
  obtain ⟨el, _, ea, es, ec⟩ := C59_exceptions u s.conf
  have ea : (userConf s u).conf.logSaveDays = s.conf.logSaveDays := ea
  have es : (userConf s u).conf.logFileSize = s.conf.logFileSize := es
  have ec : (userConf s u).conf.logCons = s.conf.logCons := ec
  have el : (userConf s u).conf.logIsolationLevel = u.logIsolationLevel := el
  have h0 := level_same.1 h.level
  constructor
  · intro hi
    refine ⟨fun e => ?_, fun e => ?_, fun e => ?_⟩
    · have := level_same.1 hi.level
      rw [hl, el, if_neg (by omega)] at this
      omega
    · by_cases e1 : s.conf.logFile = ""
      · exact .inr (.inr e1)
      · obtain ⟨w, hw, hw', _⟩ := h.file e1
        obtain ⟨w2, hw2, hw2', _⟩ := hi.file (by rw [hn, if_pos e]; exact e1)
        rw [hf, if_pos e, hw] at hw2
        cases hw2
        rw [hw', hd] at hw2'
        by_cases e2 : u.logDir = ""
        · exact .inl e2
        · rw [if_neg e2] at hw2'
          exact .inr (.inl hw2'.symm)
    · obtain ⟨w, hw, _, _, h1, h2, h3⟩ := hi.file (by rw [hn, if_neg e]; exact e)
      rw [hf, if_neg e] at hw
      cases hw
      rw [ec] at h1
      rw [ea] at h2
      rw [es] at h3
      refine ⟨?_, ?_, h1.symm⟩
      · split at h2 <;> simp at h2 <;> omega
      · split at h3 <;> simp at h3 <;> omega
  · intro ⟨h1, h2, h3⟩
    refine ⟨fun e => ?_, fun e => ?_, level_same.2 ?_⟩
    · rw [hn] at e
      by_cases e1 : u.logFile = ""
      · rw [if_pos e1] at e
        rw [hf, if_pos e1]
        exact h.noFile e
      · rw [if_neg e1] at e
        exact absurd e e1
    · rw [hn] at e
      by_cases e1 : u.logFile = ""
      · rw [if_pos e1] at e
        obtain ⟨w, hw, a, b, c, d⟩ := h.file e
        rw [hf, if_pos e1, hn, if_pos e1, hd, ea, es, ec]
        refine ⟨w, hw, ?_, b, c, d⟩
        rw [a]
        by_cases e2 : u.logDir = ""
        · rw [if_pos e2]
        · rw [if_neg e2]
          rcases h2 e1 with h | h | h
          · exact absurd h e2
          · exact h.symm
          · exact absurd h e
      · rw [hf, if_neg e1, hn, if_neg e1, hd, ea, es, ec]
        obtain ⟨a, b, c⟩ := h3 e1
        refine ⟨_, rfl, rfl, rfl, c.symm, ?_, ?_⟩ <;> dsimp only <;> split <;> omega
    · rw [hl, el]
      split <;> omega

/-- A user configuration that turns debug and info messages off meets the conditions. -/
example : InForce (userConf (reload (initial "/srv") weekFile).1 { zero with logIsolationLevel := 2 }) :=
  (C97_user_partial _ _ (C97_start_partial "/srv" weekFile rfl)).2 ⟨fun h => absurd h (by decide), fun _ => .inl rfl, fun h => absurd rfl h⟩

/-- **C97 refuted** (retention time): the configuration file asks for logs to be kept for a week; a server is created with a user configuration that names another log file. The configuration still says a
week, but logs are now kept for 31 days. -/
theorem C97_retention_refuted : ∃ s t, (reload (initial "/srv") weekFile) = (s, false) ∧ Steps ConfLog.Step s [.user { zero with logFile := "b.log", logIsolationLevel := 1 }] t ∧
    t.conf.logSaveDays = 7 ∧ t.log.fw = some { dir := "/srv/log", file := "b.log", maxAge := 31 } ∧ ¬ InForce t := by
  refine ⟨_, _, rfl, .cons (.user _ _) (.nil _), by decide, by decide, fun h => ?_⟩
  have := (C97_user_partial _ _ (C97_start_partial "/srv" weekFile rfl)).1 h
  exact absurd (this.2.2 (by decide)).1 (by decide)

/-- **C97 refuted** (level): the configuration file turns debug messages off; a server is created with a user configuration that does not mention the log level. The configuration now says that all messages
are shown, but debug messages are still suppressed. -/
theorem C97_level_refuted : ∃ s t, (reload (initial "/srv") weekFile) = (s, false) ∧ Steps ConfLog.Step s [.user { zero with name := "x" }] t ∧
    t.conf.logIsolationLevel = 0 ∧ t.log.level = 1 ∧ ¬ InForce t := by
  refine ⟨_, _, rfl, .cons (.user _ _) (.nil _), by decide, by decide, fun h => ?_⟩
  have := (C97_user_partial _ _ (C97_start_partial "/srv" weekFile rfl)).1 h
  exact absurd (this.1 (by decide)) (by decide)

/-- **C97 refuted** (directory): a user configuration with another log directory but no file name changes the configuration; the logger goes on in the old directory. -/
theorem C97_directory_refuted : ∃ s t, (reload (initial "/srv") weekFile) = (s, false) ∧ Steps ConfLog.Step s [.user { zero with logDir := "/var/log", logIsolationLevel := 1 }] t ∧
    t.conf.logDir = "/var/log" ∧ t.log.fw.map (·.dir) = some "/srv/log" ∧ ¬ InForce t := by
  refine ⟨_, _, rfl, .cons (.user _ _) (.nil _), by decide, by decide, fun h => ?_⟩
  have := (C97_user_partial _ _ (C97_start_partial "/srv" weekFile rfl)).1 h
  exact absurd (this.2.1 (by decide)) (by decide)

/-- **C97 refuted** (reloading): the file is changed so that it asks for all messages and no log file, and loaded again. The logger goes on writing to the old file and suppressing debug messages. -/
theorem C97_reload_refuted : ∃ s t, (reload (initial "/srv") weekFile) = (s, false) ∧
    Steps ConfLog.Step s [.reload (.valid fun g => { g with logFile := "", logIsolationLevel := 0 })] t ∧
    t.conf.logFile = "" ∧ t.conf.logIsolationLevel = 0 ∧ t.log = { fw := some { dir := "/srv/log", file := "a.log", maxAge := 7 }, level := 1 } ∧ ¬ InForce t := by
  refine ⟨_, _, rfl, .cons (.reload _ _) (.nil _), by decide, by decide, by decide, fun h => ?_⟩
  exact absurd (h.noFile (by decide)) (by decide)

end Zinx.Props
