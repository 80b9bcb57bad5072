import Verif.Props.LogConc

/-!
# C123: the lines of the log and time
-/

namespace Zinx.Props

open Zinx Zinx.LogConc

/-- The call made by an action. -/
def callOf : LogConc.Label → Option Call
  | .call _ c => some c
  | _ => none

/-- `time.Now` (zlog/logger_core.go:198) does not go back: the times of the calls are in the order of the calls. `τ` puts times on a line. -/
def ClockGoesOn (τ : Log.Time → Int) (ls : List LogConc.Label) : Prop := (ls.filterMap callOf).Pairwise fun a b => τ a.x.time ≤ τ b.x.time

/-- The call in progress is one of the history, the last of its goroutine. -/
theorem logPhase_call {i : Nat} {c : Call} : ∀ (n : Nat) (ls : List LogConc.Label) (o : Option Bytes), ls.length = n → logPhase i none ls = some (c, o) →
    ∃ x y, ls = x ++ .call i c :: y ∧ (∀ c', LogConc.Label.call i c' ∉ y) ∧ LogConc.Label.ret i ∉ y ∧ LogConc.Label.panicked i ∉ y ∧ (o = none → ∀ b, LogConc.Label.wrote i b ∉ y)
  | 0, ls, o, hn, h => by
    rw [List.length_eq_zero_iff.1 hn] at h; cases h
  | n + 1, ls', o, hn, h => by
    rcases List.eq_nil_or_concat ls' with rfl | ⟨ls, l, rfl⟩
    · cases h
    have ih := fun o => logPhase_call (i := i) (c := c) n ls o (by simpa using hn)
    rw [List.concat_eq_append] at h ⊢
    rw [logPhase_append] at h
    have keep : ∀ o', logPhase i none ls = some (c, o') → (∀ c', l ≠ .call i c') → l ≠ .ret i → l ≠ .panicked i → (o = none → o' = none ∧ ∀ b, l ≠ .wrote i b) →
        ∃ x y, ls ++ [l] = x ++ .call i c :: y ∧ (∀ c', LogConc.Label.call i c' ∉ y) ∧ LogConc.Label.ret i ∉ y ∧ LogConc.Label.panicked i ∉ y ∧ (o = none → ∀ b, LogConc.Label.wrote i b ∉ y) := by
      intro o' h1 h2 h3 h8 h6
      obtain ⟨x, y, rfl, h4, h5, h9, h7⟩ := ih o' h1
      refine ⟨x, y ++ [l], by simp, fun c' hc => ?_, fun hc => ?_, fun hc => ?_, fun ho b hc => ?_⟩
      · rcases List.mem_append.1 hc with hc | hc
        · exact h4 c' hc
        · exact h2 c' (List.mem_singleton.1 hc).symm
      · rcases List.mem_append.1 hc with hc | hc
        · exact h5 hc
        · exact h3 (List.mem_singleton.1 hc).symm
      · rcases List.mem_append.1 hc with hc | hc
        · exact h9 hc
        · exact h8 (List.mem_singleton.1 hc).symm
      · rcases List.mem_append.1 hc with hc | hc
        · exact h7 (h6 ho).1 b hc
        · exact (h6 ho).2 b (List.mem_singleton.1 hc).symm
    cases l with
    | call j c' =>
      simp only [logPhase] at h
      by_cases hj : j = i
      · rw [if_pos hj] at h
        cases h; subst hj
        exact ⟨ls, [], rfl, fun _ => List.not_mem_nil, List.not_mem_nil, List.not_mem_nil, fun _ _ => List.not_mem_nil⟩
      · rw [if_neg hj] at h
        exact keep _ h (fun c'' hc => by cases hc; exact hj rfl) nofun nofun (fun ho => ⟨ho, nofun⟩)
    | wrote j b =>
      simp only [logPhase] at h
      by_cases hj : j = i
      · rw [if_pos hj] at h
        cases hp : logPhase i none ls with
        | none => rw [hp] at h; cases h
        | some q => rw [hp] at h; cases h; exact keep q.2 hp nofun nofun nofun (fun ho => by cases ho)
      · rw [if_neg hj] at h; exact keep _ h nofun nofun nofun (fun ho => ⟨ho, fun b hc => by cases hc; exact hj rfl⟩)
    | ret j =>
      simp only [logPhase] at h
      by_cases hj : j = i
      · rw [if_pos hj] at h; cases h
      · rw [if_neg hj] at h; exact keep _ h nofun (fun hc => by cases hc; exact hj rfl) nofun (fun ho => ⟨ho, nofun⟩)
    | panicked j =>
      simp only [logPhase] at h
      by_cases hj : j = i
      · rw [if_pos hj] at h; cases h
      · rw [if_neg hj] at h; exact keep _ h nofun nofun (fun hc => by cases hc; exact hj rfl) (fun ho => ⟨ho, nofun⟩)
    | _ => exact keep _ h nofun nofun nofun (fun ho => ⟨ho, nofun⟩)

theorem logPhase_still {i : Nat} {p : Option (Call × Option Bytes)} {ls : List LogConc.Label} (h1 : ∀ c, LogConc.Label.call i c ∉ ls) (h2 : LogConc.Label.ret i ∉ ls) (h3 : LogConc.Label.panicked i ∉ ls)
    (h4 : ∀ b, LogConc.Label.wrote i b ∉ ls) : logPhase i p ls = p := by
  induction ls with
  | nil => rfl
  | cons l ls ih =>
    have ih := ih (fun c hc => h1 c (List.mem_cons_of_mem _ hc)) (fun hc => h2 (List.mem_cons_of_mem _ hc)) (fun hc => h3 (List.mem_cons_of_mem _ hc)) (fun b hc => h4 b (List.mem_cons_of_mem _ hc))
    cases l with
    | call j c => rw [logPhase, if_neg (fun hj => h1 c (by simp [hj]))]; exact ih
    | wrote j b => rw [logPhase, if_neg (fun hj => h4 b (by simp [hj]))]; exact ih
    | ret j => rw [logPhase, if_neg (fun hj => h2 (by simp [hj]))]; exact ih
    | panicked j => rw [logPhase, if_neg (fun hj => h3 (by simp [hj]))]; exact ih
    | _ => exact ih

/-- Two calls in one history whose times are out of order were made in the other order. -/
theorem call_order {τ : Log.Time → Int} {ls : List LogConc.Label} (h : ClockGoesOn τ ls) {x y z : List LogConc.Label} {i j : Nat} {c d : Call} (e : ls = x ++ .call i c :: y ++ .call j d :: z) : τ c.x.time ≤ τ d.x.time := by
  subst e
  unfold ClockGoesOn at h
  simp only [List.append_assoc, List.filterMap_append, List.cons_append, List.filterMap_cons, callOf] at h
  have := (List.pairwise_append.1 h).2.1
  exact (List.pairwise_cons.1 this).1 d (by simp)

/-- **C123** (exactly when): when a line bears a later time than a line written after it, the other call was under way already when the call of the first line was made, and had not written. In particular they are calls of two goroutines that overlap. -/
theorem C123_overlap {g : Cfg} (hg : g.nested = false) {st : Settings} {a m : List LogConc.Label} {s : LogConc.State} {i j : Nat} {b1 b2 : Bytes} {c1 c2 : Call} {o1 o2 : Option Bytes} (τ : Log.Time → Int)
    (h : Steps (LogConc.Step g) { st := st } (a ++ .wrote i b1 :: m ++ [.wrote j b2]) s) (hc : ClockGoesOn τ (a ++ .wrote i b1 :: m))
    (h1 : logPhase i none a = some (c1, o1)) (h2 : logPhase j none (a ++ .wrote i b1 :: m) = some (c2, o2)) (hlt : τ c2.x.time < τ c1.x.time) :
    i ≠ j ∧ ∃ x y z, a = x ++ .call j c2 :: y ++ .call i c1 :: z ∧ logPhase j none (x ++ .call j c2 :: y) = some (c2, none) ∧ LogConc.Label.ret j ∉ y ++ .call i c1 :: z ++ .wrote i b1 :: m := by
  obtain ⟨u, hu, hw⟩ := h.unsnoc
  have ho2 : o2 = none := by
    obtain ⟨c, hc, _⟩ := C77_partial g hg st _ u hu _ _ hw
    rw [h2] at hc; cases hc; rfl
  obtain ⟨x1, y1, e1, n1, r1, q1, w1⟩ := logPhase_call _ a o1 rfl h1
  obtain ⟨x2, y2, e2, n2, r2, q2, w2⟩ := logPhase_call _ _ o2 rfl h2
  replace w2 := w2 ho2
  -- where the second call was made
  have hin : ∃ y, a = x2 ++ .call j c2 :: y ∧ y2 = y ++ .wrote i b1 :: m := by
    rcases List.append_eq_append_iff.1 e2 with ⟨z, hz, hz2⟩ | ⟨z, hz, hz2⟩
    · -- after the first line
      exfalso
      cases z with
      | nil => simp at hz2
      | cons l z =>
        rw [List.cons_append, List.cons.injEq] at hz2
        obtain ⟨rfl, hz2⟩ := hz2
        have := call_order hc (x := x1) (y := y1 ++ .wrote i b1 :: z) (z := y2) (i := i) (j := j) (c := c1) (d := c2) (by rw [hz2, e1]; simp)
        omega
    · cases z with
      | nil => simp at hz2
      | cons l z =>
        rw [List.cons_append, List.cons.injEq] at hz2
        obtain ⟨rfl, hz2⟩ := hz2
        exact ⟨z, hz, hz2⟩
  obtain ⟨y, ea, rfl⟩ := hin
  have hpre : ClockGoesOn τ a := by
    unfold ClockGoesOn at hc ⊢
    rw [List.filterMap_append] at hc
    exact (List.pairwise_append.1 hc).1
  have : ∃ z w, y = z ++ .call i c1 :: w := by
    rw [e1] at ea
    rcases List.append_eq_append_iff.1 ea with ⟨z, hz, hz2⟩ | ⟨z, hz, hz2⟩
    · cases z with
      | nil =>
        simp at hz2
        rw [hz2.1.2] at hlt; omega
      | cons l z =>
        rw [List.cons_append, List.cons.injEq] at hz2
        obtain ⟨rfl, hz2⟩ := hz2
        exfalso
        have := call_order hpre (x := x1) (y := z) (z := y) (i := i) (j := j) (c := c1) (d := c2) (by rw [e1, hz2]; simp)
        omega
    · cases z with
      | nil =>
        simp at hz2
        rw [hz2.1.2] at hlt; omega
      | cons l z =>
        rw [List.cons_append, List.cons.injEq] at hz2
        obtain ⟨rfl, hz2⟩ := hz2
        exact ⟨z, y1, hz2⟩
  obtain ⟨z, w, rfl⟩ := this
  refine ⟨?_, x2, z, w, by rw [ea]; simp, ?_, ?_⟩
  · rintro rfl
    exact n2 c1 (by simp)
  · rw [logPhase_append]
    simp only [logPhase, if_true]
    apply logPhase_still
    · exact fun c' hc => n2 c' (by simp [hc])
    · exact fun hc => r2 (by simp [hc])
    · exact fun hc => q2 (by simp [hc])
    · exact fun b hc => w2 b (by simp [hc])
  · simpa using r2

/-- **C123**, in part: if no call is made while another one is under way and has not written, the times of the lines do not decrease. -/
theorem C123_partial {g : Cfg} (hg : g.nested = false) {st : Settings} {a m : List LogConc.Label} {s : LogConc.State} {i j : Nat} {b1 b2 : Bytes} {c1 c2 : Call} {o1 o2 : Option Bytes} (τ : Log.Time → Int)
    (h : Steps (LogConc.Step g) { st := st } (a ++ .wrote i b1 :: m ++ [.wrote j b2]) s) (hc : ClockGoesOn τ (a ++ .wrote i b1 :: m))
    (h1 : logPhase i none a = some (c1, o1)) (h2 : logPhase j none (a ++ .wrote i b1 :: m) = some (c2, o2))
    (hno : ∀ x k c y, a = x ++ .call k c :: y → ∀ l d, logPhase l none x ≠ some (d, none)) : τ c1.x.time ≤ τ c2.x.time := by
  apply Classical.byContradiction
  intro hlt
  obtain ⟨hij, x, y, z, e, h3, h4⟩ := C123_overlap hg τ h hc h1 h2 (by omega)
  exact hno _ _ _ _ e j c2 h3

/-- A line written without anybody in between. -/
theorem log_alone (g : Cfg) (hg : g.hasHook = false) (s : LogConc.State) (i : Nat) (c : Call) (h : Bytes) (hp : s.pc i = .want c) (hl : s.lock = none) (hw : wantsFile s.st = false) (hh : head s.st c false = some h) :
    ∃ t, Steps (LogConc.Step g) s [.own i, .own i, .own i, .own i, .own i, .wrote i (h ++ c.s ++ lineEnd c.s), .ret i] t ∧ t.st = s.st ∧ t.lock = none ∧ t.pc i = .idle ∧ ∀ j, j ≠ i → t.pc j = s.pc j := by
  have h1 := LogConc.Step.lock (g := g) s i c hp hl
  have h2 := LogConc.Step.noLook (g := g) { s with lock := some i, pc := LogConc.set s.pc i (.first c) } i c (by simp [LogConc.set]) hw
  have h3 := LogConc.Step.reset (g := g) { s with lock := some i, pc := LogConc.set (LogConc.set s.pc i (.first c)) i (.reset c false) } i c false (by simp [LogConc.set])
  have h4 := LogConc.Step.header (g := g) { s with lock := some i, buf := [], pc := LogConc.set (LogConc.set (LogConc.set s.pc i (.first c)) i (.reset c false)) i (.header c false) } i c false h (by simp [LogConc.set]) hh
  have h5 := LogConc.Step.body (g := g) { s with lock := some i, buf := [] ++ h, pc := LogConc.set (LogConc.set (LogConc.set (LogConc.set s.pc i (.first c)) i (.reset c false)) i (.header c false)) i (.body c) } i c (by simp [LogConc.set])
  have h6 := LogConc.Step.write (g := g) { s with lock := some i, buf := [] ++ h ++ c.s ++ lineEnd c.s, pc := LogConc.set (LogConc.set (LogConc.set (LogConc.set (LogConc.set s.pc i (.first c)) i (.reset c false)) i (.header c false)) i (.body c)) i (.write c) } i c (by simp [LogConc.set])
  rw [hg] at h6
  have h7 := LogConc.Step.unlock (g := g) { s with lock := some i, buf := [] ++ h ++ c.s ++ lineEnd c.s, pc := LogConc.set (LogConc.set (LogConc.set (LogConc.set (LogConc.set (LogConc.set s.pc i (.first c)) i (.reset c false)) i (.header c false)) i (.body c)) i (.write c)) i (.unlock c) } i c (by simp [LogConc.set])
  refine ⟨_, .cons h1 (.cons h2 (.cons h3 (.cons h4 (.cons h5 (.cons h6 (.cons h7 (.nil _))))))), rfl, rfl, by simp [LogConc.set], fun j hj => by simp [LogConc.set, hj]⟩

/-- A log call at 10:00 and some seconds. -/
def callAt (sec : Int) (x : UInt8) : Call := ⟨⟨⟨2026, 1, 1, 10, 0, sec, 0⟩, [], 0⟩, 0, [x]⟩

/-- **C123** is false of the code: the time is taken before the lock. Two goroutines log, the one that was first gets the lock last; the lines are `10:00:01 b` and then `10:00:00 a`. -/
theorem C123_refuted : ∃ s, Steps (LogConc.Step ⟨false, false⟩) { st := ⟨[], Log.bitTime⟩ }
    ([.call 0 (callAt 0 97), .call 1 (callAt 1 98)] ++ [.own 1, .own 1, .own 1, .own 1, .own 1, .wrote 1 [49, 48, 58, 48, 48, 58, 48, 49, 32, 98, 10], .ret 1] ++
      [.own 0, .own 0, .own 0, .own 0, .own 0, .wrote 0 [49, 48, 58, 48, 48, 58, 48, 48, 32, 97, 10], .ret 0]) s := by
  have h1 : Steps (LogConc.Step ⟨false, false⟩) { st := ⟨[], Log.bitTime⟩ } [.call 0 (callAt 0 97), .call 1 (callAt 1 98)] { st := ⟨[], Log.bitTime⟩, pc := LogConc.set (LogConc.set (fun _ => .idle) 0 (.want (callAt 0 97))) 1 (.want (callAt 1 98)) } :=
    .cons (.call _ 0 _ rfl) (.cons (.call _ 1 _ rfl) (.nil _))
  obtain ⟨t, h2, a1, a2, a3, a4⟩ := log_alone ⟨false, false⟩ rfl { st := ⟨[], Log.bitTime⟩, pc := LogConc.set (LogConc.set (fun _ => .idle) 0 (.want (callAt 0 97))) 1 (.want (callAt 1 98)) } 1 (callAt 1 98) [49, 48, 58, 48, 48, 58, 48, 49, 32] rfl rfl (by decide) (by decide)
  obtain ⟨u, h3, _⟩ := log_alone ⟨false, false⟩ rfl t 0 (callAt 0 97) [49, 48, 58, 48, 48, 58, 48, 48, 32] (by rw [a4 0 (by decide)]; rfl) a2 (by rw [a1]; decide) (by rw [a1]; decide)
  exact ⟨u, (h1.append h2).append h3⟩

/-- The hypotheses of `C123_overlap` are met there. -/
example : ClockGoesOn (·.sec) [.call 0 (callAt 0 97), .call 1 (callAt 1 98)] ∧ logPhase 1 none [.call 0 (callAt 0 97), .call 1 (callAt 1 98)] = some (callAt 1 98, none) ∧ (callAt 0 97).x.time.sec < (callAt 1 98).x.time.sec := by
  refine ⟨?_, rfl, by decide⟩
  simp [ClockGoesOn, callOf, callAt]

/-- The hypotheses of `C123_partial` are met by two calls one after the other. -/
example : ∃ s b1 b2 m, Steps (LogConc.Step ⟨false, false⟩) { st := ⟨[], Log.bitTime⟩ } (([.call 0 (callAt 0 97)] ++ [.own 0, .own 0, .own 0, .own 0, .own 0]) ++ .wrote 0 b1 :: m ++ [.wrote 1 b2]) s ∧
    ClockGoesOn (·.sec) (([.call 0 (callAt 0 97)] ++ [.own 0, .own 0, .own 0, .own 0, .own 0]) ++ .wrote 0 b1 :: m) ∧
    logPhase 1 none (([.call 0 (callAt 0 97)] ++ [.own 0, .own 0, .own 0, .own 0, .own 0]) ++ .wrote 0 b1 :: m) = some (callAt 1 98, none) ∧
    ∀ x k c y, [.call 0 (callAt 0 97)] ++ [.own 0, .own 0, .own 0, .own 0, .own 0] = x ++ LogConc.Label.call k c :: y → ∀ l d, logPhase l none x ≠ some (d, none) := by
  have h1 : Steps (LogConc.Step ⟨false, false⟩) { st := ⟨[], Log.bitTime⟩ } [.call 0 (callAt 0 97)] { st := ⟨[], Log.bitTime⟩, pc := LogConc.set (fun _ => .idle) 0 (.want (callAt 0 97)) } := .cons (.call _ 0 _ rfl) (.nil _)
  obtain ⟨t, h2, a1, a2, a3, a4⟩ := log_alone ⟨false, false⟩ rfl { st := ⟨[], Log.bitTime⟩, pc := LogConc.set (fun _ => .idle) 0 (.want (callAt 0 97)) } 0 (callAt 0 97) [49, 48, 58, 48, 48, 58, 48, 48, 32] rfl rfl (by decide) (by decide)
  have h3 : LogConc.Step ⟨false, false⟩ t (.call 1 (callAt 1 98)) { t with pc := LogConc.set t.pc 1 (.want (callAt 1 98)) } := .call _ 1 _ (by rw [a4 1 (by decide)]; rfl)
  obtain ⟨u, h4, _⟩ := log_alone ⟨false, false⟩ rfl { t with pc := LogConc.set t.pc 1 (.want (callAt 1 98)) } 1 (callAt 1 98) [49, 48, 58, 48, 48, 58, 48, 49, 32] (by simp [LogConc.set]) a2 (by rw [a1]; decide) (by rw [a1]; decide)
  have h6 : Steps (LogConc.Step ⟨false, false⟩) { st := ⟨[], Log.bitTime⟩ } ([.call 0 (callAt 0 97), .own 0, .own 0, .own 0, .own 0, .own 0, .wrote 0 [49, 48, 58, 48, 48, 58, 48, 48, 32, 97, 10], .ret 0, .call 1 (callAt 1 98),
    .own 1, .own 1, .own 1, .own 1, .own 1, .wrote 1 [49, 48, 58, 48, 48, 58, 48, 49, 32, 98, 10]] ++ [.ret 1]) u := ((h1.append h2).snoc h3).append h4
  obtain ⟨v, h5, _⟩ := h6.unsnoc
  refine ⟨v, _, _, [.ret 0, .call 1 (callAt 1 98), .own 1, .own 1, .own 1, .own 1, .own 1], h5, ?_, rfl, ?_⟩
  · show List.Pairwise _ [callAt 0 97, callAt 1 98]
    simp [callAt]
  · intro x k c y e l d
    rcases x with _ | ⟨a, x⟩
    · nofun
    · have e2 : [LogConc.Label.own 0, .own 0, .own 0, .own 0, .own 0] = x ++ LogConc.Label.call k c :: y := (List.cons.inj e).2
      have : LogConc.Label.call k c ∈ [LogConc.Label.own 0, .own 0, .own 0, .own 0, .own 0] := by
        rw [e2]; simp
      simp at this

end Zinx.Props
