import Verif.Model.LogConc
import Verif.Lemmas.ExecOf

/-! C77: log lines from many goroutines. -/

namespace Zinx.Props

open LogConc (Label Pc Call Settings Change Cfg)

/-- The settings after a history. -/
def logSettings (st : Settings) : List Label → Settings
  | [] => st
  | .changed _ d :: ls => logSettings (d.apply st) ls
  | _ :: ls => logSettings st ls

/-- Where goroutine `i` is after a history: its call, and what it has written for it. -/
def logPhase (i : Nat) (p : Option (Call × Option Bytes)) : List Label → Option (Call × Option Bytes)
  | [] => p
  | .call j c :: ls => logPhase i (if j = i then some (c, none) else p) ls
  | .wrote j b :: ls => logPhase i (if j = i then p.map fun q => (q.1, some b) else p) ls
  | .ret j :: ls => logPhase i (if j = i then none else p) ls
  | .panicked j :: ls => logPhase i (if j = i then none else p) ls
  | _ :: ls => logPhase i p ls

/-- The line of a call made alone with these settings (C60, C61). -/
def logLine (st : Settings) (c : Call) : Option Bytes :=
  (Log.outPut { pre := st.pre, flag := st.flag, isolation := 0, hasFile := false, hasHook := false } c.x c.level c.s).map (·.bytes)

theorem logSettings_append (st : Settings) (a b : List Label) : logSettings st (a ++ b) = logSettings (logSettings st a) b := by
  induction a generalizing st with
  | nil => rfl
  | cons x a ih => cases x <;> simp [logSettings, ih]

theorem logPhase_append (i : Nat) (p) (a b : List Label) : logPhase i p (a ++ b) = logPhase i (logPhase i p a) b := by
  induction a generalizing p with
  | nil => rfl
  | cons x a ih => cases x <;> simp [logPhase, ih]

/-- Without a file flag the header does not depend on the caller. -/
theorem head_unknown {st : Settings} (h : LogConc.wantsFile st = false) (c : Call) (k k' : Bool) : LogConc.head st c k = LogConc.head st c k' := by
  unfold LogConc.wantsFile at h
  simp [LogConc.head, Log.formatHeader, Log.filePart, h]

theorem logLine_eq (st : Settings) (c : Call) : logLine st c = (LogConc.head st c (LogConc.wantsFile st)).map fun h => h ++ c.s ++ LogConc.lineEnd c.s := by
  unfold logLine Log.outPut LogConc.head LogConc.wantsFile LogConc.lineEnd
  simp only [Option.bind_eq_bind]
  cases Log.formatHeader st.pre st.flag c.x.time _ _ c.level <;> rfl

/-- Goroutines between lock and unlock. -/
def logHolds : Pc → Prop
  | .first _ | .reset .. | .header .. | .body _ | .write _ | .hook _ | .unlock _ => True
  | _ => False

/-- What the place of a goroutine says about the settings, the buffer and its phase. -/
def logHere (st : Settings) (buf : Bytes) : Pc → Option (Call × Option Bytes) → Prop
  | .idle, p => p = none
  | .want c, p => p = some (c, none)
  | .first c, p => p = some (c, none)
  | .again c, p => p = some (c, none)
  | .reset c k, p => p = some (c, none) ∧ (k = false → LogConc.wantsFile st = false)
  | .header c k, p => p = some (c, none) ∧ (k = false → LogConc.wantsFile st = false) ∧ buf = []
  | .body c, p => p = some (c, none) ∧ LogConc.head st c (LogConc.wantsFile st) = some buf
  | .write c, p => p = some (c, none) ∧ logLine st c = some buf
  | .hook c, p => p = some (c, some buf)
  | .unlock c, p => ∃ b, p = some (c, some b)
  | .set _, p => p = none

structure LogInv (st : Settings) (ls : List Label) (s : LogConc.State) : Prop where
  st : s.st = logSettings st ls
  lock : ∀ i, logHolds (s.pc i) → s.lock = some i
  here : ∀ i, logHere s.st s.buf (s.pc i) (logPhase i none ls)

theorem logHere_other {st st' buf buf' pc p} (h : logHere st buf pc p) (hp : ¬ logHolds pc) : logHere st' buf' pc p := by
  cases pc <;> first | exact h | exact absurd trivial hp

theorem head_known {st : Settings} {c : Call} {k : Bool} (h : k = false → LogConc.wantsFile st = false) : LogConc.head st c k = LogConc.head st c (LogConc.wantsFile st) := by
  by_cases hw : LogConc.wantsFile st = false
  · exact head_unknown hw c _ _
  · have : k = LogConc.wantsFile st := by cases k <;> simp_all
    rw [this]

theorem logHere_set {st st' : Settings} {buf buf' : Bytes} {pc : Nat → Pc} {i : Nat} {v : Pc} {ls : List Label} {l : Label} (h3 : ∀ j, logHere st buf (pc j) (logPhase j none ls))
    (hp : ∀ j p, j ≠ i → logPhase j p [l] = p) (hb : (st' = st ∧ buf' = buf) ∨ ∀ j, j ≠ i → ¬ logHolds (pc j)) (hi : logHere st' buf' v (logPhase i (logPhase i none ls) [l])) :
    ∀ j, logHere st' buf' (LogConc.set pc i v j) (logPhase j none (ls ++ [l])) := by
  intro j
  rw [logPhase_append]
  by_cases hj : j = i
  · subst hj
    simpa [LogConc.set] using hi
  · rw [hp j _ hj]
    simp only [LogConc.set, hj, if_false]
    rcases hb with ⟨rfl, rfl⟩ | hb
    · exact h3 j
    · exact logHere_other (h3 j) (hb j hj)

theorem logInv_step {g : Cfg} (hg : g.nested = false) {st ls s l t} (h : LogInv st ls s) (hs : LogConc.Step g s l t) : LogInv st (ls ++ [l]) t := by
  obtain ⟨h1, h2, h3⟩ := h
  have hone : ∀ i, logHolds (s.pc i) → ∀ j, j ≠ i → ¬ logHolds (s.pc j) := by
    intro i hi j hj hjh
    have a := h2 i hi
    have b := h2 j hjh
    rw [a] at b
    exact hj (Option.some.inj b).symm
  have hfree : s.lock = none → ∀ j, ¬ logHolds (s.pc j) := by
    intro hn j hj
    rw [h2 j hj] at hn
    cases hn
  have hlock : ∀ i v, (∀ j, j ≠ i → ¬ logHolds (s.pc j)) → ∀ lk : Option Nat, (logHolds v → lk = some i) → ∀ j, logHolds (LogConc.set s.pc i v j) → lk = some j := by
    intro i v ho lk hv j hj
    by_cases hji : j = i
    · subst hji
      simp only [LogConc.set, if_true] at hj
      exact hv hj
    · simp only [LogConc.set, hji, if_false] at hj
      exact absurd hj (ho j hji)
  have hkeep : ∀ i v, (logHolds v → s.lock = some i) → ∀ j, logHolds (LogConc.set s.pc i v j) → s.lock = some j := by
    intro i v hv j hj
    by_cases hji : j = i
    · subst hji
      simp only [LogConc.set, if_true] at hj
      exact hv hj
    · simp only [LogConc.set, hji, if_false] at hj
      exact h2 j hj
  have hst : t.st = logSettings st (ls ++ [l]) := by
    rw [logSettings_append, ← h1]; cases hs <;> rfl
  cases hs with
  | call i c hpc =>
    refine ⟨hst, hkeep i _ (fun h => False.elim h), logHere_set h3 (fun j p hj => ?_) (.inl ⟨rfl, rfl⟩) ?_⟩
    · simp [logPhase, Ne.symm hj]
    · simp [logPhase, logHere]
  | lock i c hpc hl =>
    refine ⟨hst, hlock i _ (fun j _ => hfree hl j) _ (fun _ => rfl), logHere_set h3 (fun j p hj => rfl) (.inl ⟨rfl, rfl⟩) ?_⟩
    have := h3 i
    rw [hpc] at this
    exact this
  | look i c hpc hw =>
    refine ⟨hst, hlock i _ (hone i (by rw [hpc]; trivial)) _ (fun h => False.elim h), logHere_set h3 (fun j p hj => rfl) (.inl ⟨rfl, rfl⟩) ?_⟩
    have := h3 i
    rw [hpc] at this
    exact this
  | noLook i c hpc hw =>
    refine ⟨hst, hkeep i _ (fun _ => h2 i (by rw [hpc]; trivial)), logHere_set h3 (fun j p hj => rfl) (.inl ⟨rfl, rfl⟩) ?_⟩
    have := h3 i
    rw [hpc] at this
    exact ⟨this, fun _ => hw⟩
  | relock i c hpc hl =>
    refine ⟨hst, hlock i _ (fun j _ => hfree hl j) _ (fun _ => rfl), logHere_set h3 (fun j p hj => rfl) (.inl ⟨rfl, rfl⟩) ?_⟩
    have := h3 i
    rw [hpc] at this
    exact ⟨this, nofun⟩
  | reset i c k hpc =>
    have hh : logHolds (s.pc i) := by rw [hpc]; trivial
    refine ⟨hst, hkeep i _ (fun _ => h2 i hh), logHere_set h3 (fun j p hj => rfl) (.inr (hone i hh)) ?_⟩
    have := h3 i
    rw [hpc] at this
    exact ⟨this.1, this.2, rfl⟩
  | header i c k h hpc hhd =>
    have hh : logHolds (s.pc i) := by rw [hpc]; trivial
    refine ⟨hst, hkeep i _ (fun _ => h2 i hh), logHere_set h3 (fun j p hj => rfl) (.inr (hone i hh)) ?_⟩
    have := h3 i
    rw [hpc] at this
    exact ⟨this.1, by rw [← head_known this.2.1, hhd, this.2.2]; rfl⟩
  | headerPanic i c k hpc hhd =>
    have hh : logHolds (s.pc i) := by rw [hpc]; trivial
    refine ⟨hst, hlock i _ (hone i hh) _ (fun h => False.elim h), logHere_set h3 (fun j p hj => ?_) (.inl ⟨rfl, rfl⟩) ?_⟩
    · simp [logPhase, Ne.symm hj]
    · simp [logPhase, logHere]
  | body i c hpc =>
    have hh : logHolds (s.pc i) := by rw [hpc]; trivial
    refine ⟨hst, hkeep i _ (fun _ => h2 i hh), logHere_set h3 (fun j p hj => rfl) (.inr (hone i hh)) ?_⟩
    have := h3 i
    rw [hpc] at this
    exact ⟨this.1, by rw [logLine_eq, this.2]; rfl⟩
  | write i c hpc =>
    have hh : logHolds (s.pc i) := by rw [hpc]; trivial
    refine ⟨hst, hkeep i _ (fun _ => h2 i hh), logHere_set h3 (fun j p hj => ?_) (.inl ⟨rfl, rfl⟩) ?_⟩
    · simp [logPhase, Ne.symm hj]
    · have := h3 i
      rw [hpc] at this
      cases hk : g.hasHook <;> simp [logPhase, logHere, this.1]
  | hook i c hpc =>
    have hh : logHolds (s.pc i) := by rw [hpc]; trivial
    refine ⟨hst, hkeep i _ (fun _ => h2 i hh), logHere_set h3 (fun j p hj => rfl) (.inl ⟨rfl, rfl⟩) ?_⟩
    have := h3 i
    rw [hpc] at this
    exact ⟨_, this⟩
  | nested i c c' hpc hn => rw [hg] at hn; cases hn
  | unlock i c hpc =>
    have hh : logHolds (s.pc i) := by rw [hpc]; trivial
    refine ⟨hst, hlock i _ (hone i hh) _ (fun h => False.elim h), logHere_set h3 (fun j p hj => ?_) (.inl ⟨rfl, rfl⟩) ?_⟩
    · simp [logPhase, Ne.symm hj]
    · simp [logPhase, logHere]
  | callSet i d hpc =>
    refine ⟨hst, hkeep i _ (fun h => False.elim h), logHere_set h3 (fun j p hj => rfl) (.inl ⟨rfl, rfl⟩) ?_⟩
    have := h3 i
    rw [hpc] at this
    exact this
  | change i d hpc hl =>
    refine ⟨hst, hkeep i _ (fun h => False.elim h), logHere_set h3 (fun j p hj => rfl) (.inr (fun j _ => hfree hl j)) ?_⟩
    have := h3 i
    rw [hpc] at this
    exact this

theorem logInv {g : Cfg} (hg : g.nested = false) {st ls t} (h : Steps (LogConc.Step g) { st := st } ls t) : LogInv st ls t :=
  h.invariant_trace (P := LogInv st) (fun _ _ _ _ hp hs => logInv_step hg hp hs) ⟨rfl, fun _ h => False.elim h, fun _ => rfl⟩

/-- **C77**, in part (hooks do not log): after any history `ls`, whatever the goroutines do,
* what is written in one piece is exactly the line of one call that is in progress and has not written yet, with the settings of this moment;
* the hook gets what the call has written; a call returns only after it has written;
* a call panics only where, made alone with the settings of this moment, it would. -/
theorem C77_partial (g : Cfg) (hg : g.nested = false) (st : Settings) (ls : List Label) (s : LogConc.State) (h : Steps (LogConc.Step g) { st := st } ls s) (l : Label) (t : LogConc.State) (hs : LogConc.Step g s l t) :
    match l with
    | .wrote i b => ∃ c, logPhase i none ls = some (c, none) ∧ logLine (logSettings st ls) c = some b
    | .hooked i b => ∃ c, logPhase i none ls = some (c, some b)
    | .ret i => ∃ c b, logPhase i none ls = some (c, some b)
    | .panicked i => ∃ c, logPhase i none ls = some (c, none) ∧ logLine (logSettings st ls) c = none
    | .call i _ => logPhase i none ls = none
    | _ => True := by
  obtain ⟨h1, h2, h3⟩ := logInv hg h
  cases hs with
  | write i c hpc =>
    have := h3 i
    rw [hpc] at this
    exact ⟨c, this.1, by rw [← h1]; exact this.2⟩
  | hook i c hpc =>
    have := h3 i
    rw [hpc] at this
    exact ⟨c, this⟩
  | unlock i c hpc =>
    have := h3 i
    rw [hpc] at this
    exact ⟨c, this⟩
  | headerPanic i c k hpc hhd =>
    have := h3 i
    rw [hpc] at this
    refine ⟨c, this.1, ?_⟩
    rw [← h1, logLine_eq, ← head_known this.2.1, hhd]; rfl
  | call i c hpc =>
    have := h3 i
    rw [hpc] at this
    exact this
  | _ => trivial

/-! ## Calls return -/

/-- What goroutine `i` does within a call. -/
def logActs (i : Nat) : Label → Prop
  | .own j | .wrote j _ | .hooked j _ | .ret j | .panicked j | .changed j _ => j = i
  | _ => False

def logRank : Pc → Nat
  | .idle => 0
  | .want _ => 9
  | .first _ => 8
  | .again _ => 7
  | .reset .. => 6
  | .header .. => 5
  | .body _ => 4
  | .write _ => 3
  | .hook _ => 2
  | .unlock _ => 1
  | .set _ => 1

/-- Within a log call. -/
def logIn : Pc → Prop
  | .idle | .set _ => False
  | _ => True

theorem log_step {g : Cfg} (hg : g.nested = false) {s l t} (hs : LogConc.Step g s l t) (i : Nat) :
    (logActs i l ∧ logRank (t.pc i) < logRank (s.pc i) ∧ (logIn (s.pc i) → logIn (t.pc i) ∨ l = .ret i ∨ l = .panicked i)) ∨ (¬ logActs i l ∧ (t.pc i = s.pc i ∨ s.pc i = .idle)) := by
  cases hs with
  | nested _ c c' hpc hn => rw [hg] at hn; cases hn
  | write j c hpc =>
    by_cases hj : j = i
    · subst hj
      left
      cases hk : g.hasHook <;> simp [logActs, LogConc.set, hpc, logRank, logIn]
    · right
      exact ⟨fun h => hj h, .inl (by simp [LogConc.set, Ne.symm hj])⟩
  | call j c hpc =>
    right
    refine ⟨id, ?_⟩
    by_cases hj : j = i
    · subst hj; exact .inr hpc
    · exact .inl (by simp [LogConc.set, Ne.symm hj])
  | callSet j c hpc =>
    right
    refine ⟨id, ?_⟩
    by_cases hj : j = i
    · subst hj; exact .inr hpc
    · exact .inl (by simp [LogConc.set, Ne.symm hj])
  | lock j c hpc hl =>
    by_cases hj : j = i
    · subst hj
      exact .inl (by simp [logActs, LogConc.set, hpc, logRank, logIn])
    · exact .inr ⟨fun h => hj h, .inl (by simp [LogConc.set, Ne.symm hj])⟩
  | look j c hpc hl =>
    by_cases hj : j = i
    · subst hj
      exact .inl (by simp [logActs, LogConc.set, hpc, logRank, logIn])
    · exact .inr ⟨fun h => hj h, .inl (by simp [LogConc.set, Ne.symm hj])⟩
  | noLook j c hpc hl =>
    by_cases hj : j = i
    · subst hj
      exact .inl (by simp [logActs, LogConc.set, hpc, logRank, logIn])
    · exact .inr ⟨fun h => hj h, .inl (by simp [LogConc.set, Ne.symm hj])⟩
  | relock j c hpc hl =>
    by_cases hj : j = i
    · subst hj
      exact .inl (by simp [logActs, LogConc.set, hpc, logRank, logIn])
    · exact .inr ⟨fun h => hj h, .inl (by simp [LogConc.set, Ne.symm hj])⟩
  | reset j c k hpc =>
    by_cases hj : j = i
    · subst hj
      exact .inl (by simp [logActs, LogConc.set, hpc, logRank, logIn])
    · exact .inr ⟨fun h => hj h, .inl (by simp [LogConc.set, Ne.symm hj])⟩
  | header j c k h hpc hl =>
    by_cases hj : j = i
    · subst hj
      exact .inl (by simp [logActs, LogConc.set, hpc, logRank, logIn])
    · exact .inr ⟨fun h => hj h, .inl (by simp [LogConc.set, Ne.symm hj])⟩
  | headerPanic j c k hpc hl =>
    by_cases hj : j = i
    · subst hj
      exact .inl (by simp [logActs, LogConc.set, hpc, logRank, logIn])
    · exact .inr ⟨fun h => hj h, .inl (by simp [LogConc.set, Ne.symm hj])⟩
  | body j c hpc =>
    by_cases hj : j = i
    · subst hj
      exact .inl (by simp [logActs, LogConc.set, hpc, logRank, logIn])
    · exact .inr ⟨fun h => hj h, .inl (by simp [LogConc.set, Ne.symm hj])⟩
  | hook j c hpc =>
    by_cases hj : j = i
    · subst hj
      exact .inl (by simp [logActs, LogConc.set, hpc, logRank, logIn])
    · exact .inr ⟨fun h => hj h, .inl (by simp [LogConc.set, Ne.symm hj])⟩
  | unlock j c hpc =>
    by_cases hj : j = i
    · subst hj
      exact .inl (by simp [logActs, LogConc.set, hpc, logRank, logIn])
    · exact .inr ⟨fun h => hj h, .inl (by simp [LogConc.set, Ne.symm hj])⟩
  | change j d hpc hl =>
    by_cases hj : j = i
    · subst hj
      exact .inl (by simp [logActs, LogConc.set, hpc, logRank, logIn])
    · exact .inr ⟨fun h => hj h, .inl (by simp [LogConc.set, Ne.symm hj])⟩

/-- The mutex is held only by a goroutine between lock and unlock. -/
theorem log_holder {g : Cfg} (hg : g.nested = false) {st ls t} (h : Steps (LogConc.Step g) { st := st } ls t) : ∀ j, t.lock = some j → logHolds (t.pc j) := by
  refine h.invariant (P := fun s => ∀ j, s.lock = some j → logHolds (s.pc j)) (fun s l t hp hs j hj => ?_) nofun
  cases hs <;> simp only [LogConc.set] at * <;> grind [logHolds]

section
variable {g : Cfg} (hg : g.nested = false) {st : Settings} {e : Exec (LogConc.Step g)} (h0 : e.run 0 = { st := st }) (hf : ∀ i, e.StrongFair (logActs i))
include hg

omit hg in
theorem log_enabled {s : LogConc.State} {i : Nat} (h : logHolds (s.pc i) ∨ (s.pc i ≠ .idle ∧ s.lock = none)) : Enabled (LogConc.Step g) (logActs i) s := by
  have hi : s.pc i ≠ .idle := by
    rcases h with h | h
    · intro hc; rw [hc] at h; exact h
    · exact h.1
  have hlk : ¬ logHolds (s.pc i) → s.lock = none := fun hn => h.elim (fun h => absurd h hn) (·.2)
  cases hpc : s.pc i with
  | idle => exact absurd hpc hi
  | want c => exact ⟨_, _, by exact rfl, .lock s i c hpc (hlk (by rw [hpc]; exact id))⟩
  | first c =>
    cases hw : LogConc.wantsFile s.st with
    | true => exact ⟨_, _, by exact rfl, .look s i c hpc hw⟩
    | false => exact ⟨_, _, by exact rfl, .noLook s i c hpc hw⟩
  | again c => exact ⟨_, _, by exact rfl, .relock s i c hpc (hlk (by rw [hpc]; exact id))⟩
  | reset c k => exact ⟨_, _, by exact rfl, .reset s i c k hpc⟩
  | header c k =>
    cases hh : LogConc.head s.st c k with
    | none => exact ⟨_, _, by exact rfl, .headerPanic s i c k hpc hh⟩
    | some b => exact ⟨_, _, by exact rfl, .header s i c k b hpc hh⟩
  | body c => exact ⟨_, _, by exact rfl, .body s i c hpc⟩
  | write c => exact ⟨_, _, by exact rfl, .write s i c hpc⟩
  | hook c => exact ⟨_, _, by exact rfl, .hook s i c hpc⟩
  | unlock c => exact ⟨_, _, by exact rfl, .unlock s i c hpc⟩
  | set d => exact ⟨_, _, by exact rfl, .change s i d hpc (hlk (by rw [hpc]; exact id))⟩

/-- While goroutine `i` does nothing it stays where it is. -/
theorem log_still {i n : Nat} (hi : (e.run n).pc i ≠ .idle) (hno : ∀ m l, n ≤ m → e.act m = some l → ¬ logActs i l) : ∀ m, n ≤ m → (e.run m).pc i = (e.run n).pc i := by
  intro m hm
  induction m with
  | zero =>
    have : n = 0 := by omega
    rw [this]
  | succ m ih =>
    by_cases hnm : n ≤ m
    · have h1 := ih hnm
      have hx := e.next m
      cases ha : e.act m with
      | none => simp only [ha] at hx; rw [hx, h1]
      | some l =>
        simp only [ha] at hx
        rcases log_step hg hx i with h | ⟨_, h | h⟩
        · exact absurd h.1 (hno m l hnm ha)
        · rw [h, h1]
        · rw [h1] at h; exact absurd h hi
    · have : n = m + 1 := by omega
      rw [this]

/-- One more step of goroutine `i` is done, provided it is possible again and again while nothing is done. -/
theorem log_next {i n : Nat} (hfi : e.StrongFair (logActs i)) (hi : (e.run n).pc i ≠ .idle)
    (hE : (∀ m, n ≤ m → (e.run m).pc i = (e.run n).pc i) → ∀ m, n ≤ m → ∃ k, m ≤ k ∧ Enabled (LogConc.Step g) (logActs i) (e.run k)) :
    ∃ m l, n ≤ m ∧ e.act m = some l ∧ logActs i l ∧ (e.run m).pc i = (e.run n).pc i := by
  have hex : ∃ m, n ≤ m ∧ ∃ l, e.act m = some l ∧ logActs i l := by
    apply Classical.byContradiction
    intro hno
    have hst := log_still hg hi (fun m l hm ha hl => hno ⟨m, hm, l, ha, hl⟩)
    obtain ⟨m, l, hm, ha, hl⟩ := hfi n (hE hst)
    exact hno ⟨m, hm, l, ha, hl⟩
  obtain ⟨m, hm, l, ha, hl⟩ := hex
  induction m using Nat.strongRecOn generalizing l with
  | _ m ih =>
    by_cases hk : ∃ k, k < m ∧ n ≤ k ∧ ∃ l, e.act k = some l ∧ logActs i l
    · obtain ⟨k, hk, hnk, l', ha', hl'⟩ := hk
      exact ih k hk hnk l' ha' hl'
    · refine ⟨m, l, hm, ha, hl, ?_⟩
      have : ∀ j, n ≤ j → j ≤ m → (e.run j).pc i = (e.run n).pc i := by
        intro j h1 h2
        induction j with
        | zero =>
          have : n = 0 := by omega
          rw [this]
        | succ j ihj =>
          by_cases hnj : n ≤ j
          · have h3 := ihj hnj (by omega)
            have hx := e.next j
            cases hj : e.act j with
            | none => simp only [hj] at hx; rw [hx, h3]
            | some l' =>
              simp only [hj] at hx
              rcases log_step hg hx i with h | ⟨_, h | h⟩
              · exact absurd ⟨j, by omega, hnj, l', hj, h.1⟩ hk
              · rw [h, h3]
              · rw [h3] at h; exact absurd h hi
          · have : n = j + 1 := by omega
            rw [this]
      exact this m hm (Nat.le_refl _)

include h0 hf

theorem log_released : ∀ v n j, (e.run n).lock = some j → logRank ((e.run n).pc j) ≤ v → ∃ m, n ≤ m ∧ (e.run m).lock = none := by
  have hh : ∀ m j, (e.run m).lock = some j → logHolds ((e.run m).pc j) := fun m => log_holder hg (h0 ▸ e.steps m)
  have hl : ∀ m j, logHolds ((e.run m).pc j) → (e.run m).lock = some j := fun m => (logInv hg (h0 ▸ e.steps m)).lock
  intro v
  induction v with
  | zero =>
    intro n j hj hv
    have := hh n j hj
    cases hpc : (e.run n).pc j <;> rw [hpc] at this hv <;> simp [logRank, logHolds] at *
  | succ v ih =>
    intro n j hj hv
    have hH := hh n j hj
    obtain ⟨m, l, hm, ha, hl', hsame⟩ := log_next hg (hf j) (fun hc => by rw [hc] at hH; exact hH)
      (fun hst m hm => ⟨m, Nat.le_refl _, log_enabled (.inl (by rw [hst m hm]; exact hH))⟩)
    have hx := e.next m
    simp only [ha] at hx
    rcases log_step hg hx j with h | h
    · rw [hsame] at h
      cases hlk : (e.run (m + 1)).lock with
      | none => exact ⟨m + 1, by omega, hlk⟩
      | some k =>
        by_cases hkj : k = j
        · subst hkj
          obtain ⟨m', hm', hr⟩ := ih (m + 1) k hlk (by omega)
          exact ⟨m', by omega, hr⟩
        · -- no other goroutine can have taken the mutex in a step of `j`
          have h1 := hh (m + 1) k hlk
          have h2 : (e.run (m + 1)).pc k = (e.run m).pc k := by
            rcases log_step hg hx k with hk | ⟨_, hk | hk⟩
            · exfalso
              have a1 := hk.1
              cases l <;> simp [logActs] at a1 hl' <;> exact hkj (a1.symm.trans hl')
            · exact hk
            · exfalso
              have h4 := h1
              generalize e.run (m + 1) = t at *
              cases hx <;> simp [logActs, LogConc.set] at * <;> grind [logHolds]
          rw [h2] at h1
          have h3 := hl m k h1
          have h4 := hl m j (by rw [hsame]; exact hH)
          rw [h3] at h4
          exact absurd (Option.some.inj h4) hkj
    · exact absurd hl' h.1

/-- **C77**, in part (hooks do not log, and return): every log call returns or panics. Fairness: goroutines run, and the mutex is not kept from one for ever. -/
theorem C77_returns (n i : Nat) (c : Call) (ha : e.act n = some (.call i c)) : ∃ m, n < m ∧ (e.act m = some (.ret i) ∨ e.act m = some (.panicked i)) := by
  have hrel : ∀ m, ∃ k, m ≤ k ∧ (e.run k).lock = none := fun m => by
    cases hl : (e.run m).lock with
    | none => exact ⟨m, Nat.le_refl _, hl⟩
    | some j => exact log_released hg h0 hf _ m j hl (Nat.le_refl _)
  have key : ∀ v n, logIn ((e.run n).pc i) → logRank ((e.run n).pc i) ≤ v → ∃ m, n ≤ m ∧ (e.act m = some (.ret i) ∨ e.act m = some (.panicked i)) := by
    intro v
    induction v with
    | zero =>
      intro n hn hv
      cases hpc : (e.run n).pc i <;> rw [hpc] at hn hv <;> simp [logRank, logIn] at *
    | succ v ih =>
      intro n hn hv
      have hni : (e.run n).pc i ≠ .idle := fun hc => by rw [hc] at hn; exact hn
      obtain ⟨m, l, hm, ha, hl, hsame⟩ := log_next hg (hf i) hni (fun hst m hm => by
        obtain ⟨k, hk, hlk⟩ := hrel m
        exact ⟨k, hk, log_enabled (.inr ⟨by rw [hst k (by omega)]; exact hni, hlk⟩)⟩)
      have hx := e.next m
      simp only [ha] at hx
      rcases log_step hg hx i with ⟨_, h2, h3⟩ | h
      · rw [hsame] at h2 h3
        rcases h3 hn with h3 | h3 | h3
        · obtain ⟨m', hm', hr⟩ := ih (m + 1) h3 (by omega)
          exact ⟨m', by omega, hr⟩
        · exact ⟨m, hm, .inl (by rw [ha, h3])⟩
        · exact ⟨m, hm, .inr (by rw [ha, h3])⟩
      · exact absurd hl h.1
  have hx := e.next n
  simp only [ha] at hx
  obtain ⟨m, hm, hr⟩ := key _ (n + 1) (by
    generalize e.run (n + 1) = t at hx
    cases hx; simp [LogConc.set, logIn]) (Nat.le_refl _)
  exact ⟨m, by omega, hr⟩

end

/-- A hook that logs stops the logger for ever: it waits for the mutex its own call holds. Nothing is written any more, by any goroutine, and no setting can be changed. -/
theorem C77_hook_refuted : ∃ st c ls t, Steps (LogConc.Step ⟨true, true⟩) { st := st } ls t ∧ ls = [.call 0 c, .own 0, .own 0, .own 0, .own 0, .own 0, .wrote 0 [104, 105, 10], .nested 0 c] ∧
    ∀ ls' u, Steps (LogConc.Step ⟨true, true⟩) t ls' u → ∀ i, (∀ b, .wrote i b ∉ ls') ∧ .ret i ∉ ls' ∧ ∀ d, .changed i d ∉ ls' := by
  have key : ∀ (ls : List Label) (s u : LogConc.State), (s.lock = some 0 ∧ ∀ j, ¬ logHolds (s.pc j)) → Steps (LogConc.Step ⟨true, true⟩) s ls u →
      ∀ i, (∀ b, .wrote i b ∉ ls) ∧ .ret i ∉ ls ∧ ∀ d, .changed i d ∉ ls := by
    intro ls s u hp h
    induction h with
    | nil => exact fun i => ⟨nofun, nofun, nofun⟩
    | @cons s t u l ls hs _ ih =>
      have hx : (t.lock = some 0 ∧ ∀ j, ¬ logHolds (t.pc j)) ∧ ((∃ i c, l = .call i c) ∨ ∃ i d, l = .callSet i d) := by
        obtain ⟨h1, h2⟩ := hp
        have h3 : ∀ j, logHolds (s.pc j) → False := h2
        have hset : ∀ i v, ¬ logHolds v → ∀ j, ¬ logHolds (LogConc.set s.pc i v j) := by
          intro i v hv j
          by_cases hj : j = i
          · simpa [LogConc.set, hj] using hv
          · simpa [LogConc.set, hj] using h2 j
        cases hs with
        | call i c hpc => exact ⟨⟨h1, hset i _ id⟩, .inl ⟨i, c, rfl⟩⟩
        | callSet i d hpc => exact ⟨⟨h1, hset i _ id⟩, .inr ⟨i, d, rfl⟩⟩
        | lock i c hpc hl => rw [h1] at hl; cases hl
        | relock i c hpc hl => rw [h1] at hl; cases hl
        | change i c hpc hl => rw [h1] at hl; cases hl
        | look i c hpc hl => exact (h3 i (by rw [hpc]; trivial)).elim
        | noLook i c hpc hl => exact (h3 i (by rw [hpc]; trivial)).elim
        | reset i c k hpc => exact (h3 i (by rw [hpc]; trivial)).elim
        | header i c k h hpc hl => exact (h3 i (by rw [hpc]; trivial)).elim
        | headerPanic i c k hpc hl => exact (h3 i (by rw [hpc]; trivial)).elim
        | body i c hpc => exact (h3 i (by rw [hpc]; trivial)).elim
        | write i c hpc => exact (h3 i (by rw [hpc]; trivial)).elim
        | hook i c hpc => exact (h3 i (by rw [hpc]; trivial)).elim
        | nested i c c' hpc hn => exact (h3 i (by rw [hpc]; trivial)).elim
        | unlock i c hpc => exact (h3 i (by rw [hpc]; trivial)).elim
      obtain ⟨h1, h2⟩ := hx
      intro i
      obtain ⟨g1, g2, g3⟩ := ih h1 i
      rcases h2 with ⟨j, c, rfl⟩ | ⟨j, d, rfl⟩
      · exact ⟨fun b => by simp [g1 b], by simp [g2], fun d => by simp [g3 d]⟩
      · exact ⟨fun b => by simp [g1 b], by simp [g2], fun d => by simp [g3 d]⟩
  refine ⟨⟨[], 0⟩, ⟨⟨⟨0, 0, 0, 0, 0, 0, 0⟩, [], 0⟩, 0, [104, 105]⟩, _, _, .cons (.call _ 0 _ rfl) (.cons (.lock _ 0 _ rfl rfl) (.cons (.noLook _ 0 _ rfl rfl) (.cons (.reset _ 0 _ false rfl)
    (.cons (.header _ 0 _ false [] rfl rfl) (.cons (.body _ 0 _ rfl) (.cons (.write _ 0 _ rfl) (.cons (.nested _ 0 _ ⟨⟨⟨0, 0, 0, 0, 0, 0, 0⟩, [], 0⟩, 0, [104, 105]⟩ rfl rfl) (.nil _)))))))), rfl, ?_⟩
  intro ls' u h
  refine key ls' _ u ⟨rfl, fun j => ?_⟩ h
  by_cases hj : j = 0 <;> simp [LogConc.set, hj, logHolds]

theorem log_idle {g : Cfg} {s : LogConc.State} {i : Nat} (h : ∀ j, s.pc j = .idle) : ¬ Enabled (LogConc.Step g) (logActs i) s := by
  rintro ⟨l, t, hl, hs⟩
  cases hs <;> simp_all [logActs]

/-- The hypotheses of `C77_returns` can be met: two goroutines log; the second one writes its line while the first one is looking for its caller. -/
example : ∃ (e : Exec (LogConc.Step ⟨true, false⟩)) (c : Call), e.run 0 = { st := ⟨[], 16#64⟩ } ∧ (∀ i, e.StrongFair (logActs i)) ∧ e.act 0 = some (.call 0 c) ∧ (e.trace 12).getLast? = some (.hooked 1 [98, 10]) := by
  let c (b : UInt8) : Call := ⟨⟨⟨0, 0, 0, 0, 0, 0, 0⟩, [], 0⟩, 0, [b]⟩
  have hw : LogConc.wantsFile ⟨[], 16#64⟩ = true := rfl
  have hd : ∀ b, LogConc.head ⟨[], 16#64⟩ (c b) true = some [] := fun b => rfl
  obtain ⟨e, h1, h2, h3, h4⟩ := Exec.ofSteps (step := LogConc.Step ⟨true, false⟩) (s := { st := ⟨[], 16#64⟩ }) (.cons (.call _ 0 (c 97) rfl) (.cons (.lock _ 0 (c 97) rfl rfl) (.cons (.look _ 0 (c 97) rfl hw)
    (.cons (.call _ 1 (c 98) rfl) (.cons (.lock _ 1 (c 98) rfl rfl) (.cons (.look _ 1 (c 98) rfl hw) (.cons (.relock _ 1 (c 98) rfl rfl) (.cons (.reset _ 1 (c 98) true rfl) (.cons (.header _ 1 (c 98) true [] rfl (hd 98))
    (.cons (.body _ 1 (c 98) rfl) (.cons (.write _ 1 (c 98) rfl) (.cons (.hook _ 1 (c 98) rfl) (.cons (.unlock _ 1 (c 98) rfl)
    (.cons (.relock _ 0 (c 97) rfl rfl) (.cons (.reset _ 0 (c 97) true rfl) (.cons (.header _ 0 (c 97) true [] rfl (hd 97))
    (.cons (.body _ 0 (c 97) rfl) (.cons (.write _ 0 (c 97) rfl) (.cons (.hook _ 0 (c 97) rfl) (.cons (.unlock _ 0 (c 97) rfl) (.nil _)))))))))))))))))))))
  refine ⟨e, c 97, h1, fun i => Exec.strongFair_of_end h4 (log_idle fun j => ?_), by rw [h2]; rfl, by rw [h3]; rfl⟩
  by_cases h0 : j = 0 <;> by_cases h1 : j = 1 <;> simp [LogConc.set, h0, h1]

end Zinx.Props
