import Verif.Model.Goexit
import Verif.Props.Unwind

/-! # C144: a function of the user that ends its goroutine -/

namespace Zinx.Props
open Zinx.Unwind Zinx.Goexit

/-- Some user function of the command is in `P`. -/
def CallsIn (P : Fun → Prop) : Cmd → Prop
  | .skip => False
  | .user f => P f
  | .seq a b => CallsIn P a ∨ CallsIn P b
  | .alt a b => CallsIn P a ∨ CallsIn P b
  | .loop a => CallsIn P a
  | .under _ a => CallsIn P a
  | .guard _ a => CallsIn P a
  | .recovered a h => CallsIn P a ∨ CallsIn P h
  | .finally a b => CallsIn P a ∨ CallsIn P b

/-- What a panic is recovered by and what is deferred calls no function but the hook of the logger. -/
def HookOnly : Cmd → Prop
  | .skip => True
  | .user _ => True
  | .seq a b => HookOnly a ∧ HookOnly b
  | .alt a b => HookOnly a ∧ HookOnly b
  | .loop a => HookOnly a
  | .under _ a => HookOnly a
  | .guard _ a => HookOnly a
  | .recovered a h => HookOnly a ∧ HookOnly h ∧ ¬ CallsIn (· ≠ .hook) h
  | .finally a b => HookOnly a ∧ HookOnly b ∧ ¬ CallsIn (· ≠ .hook) b

/-- Nothing is deferred but recovering. -/
def NoFin : Cmd → Prop
  | .skip => True
  | .user _ => True
  | .seq a b => NoFin a ∧ NoFin b
  | .alt a b => NoFin a ∧ NoFin b
  | .loop a => NoFin a
  | .under _ a => NoFin a
  | .guard _ a => NoFin a
  | .recovered a h => NoFin a ∧ NoFin h
  | .finally _ _ => False

/-- The command can end its goroutine. -/
def Exits (pan ext : Fun → Prop) : Cmd → Prop
  | .skip => False
  | .user f => ext f
  | .seq a b => Exits pan ext a ∨ Exits pan ext b
  | .alt a b => Exits pan ext a ∨ Exits pan ext b
  | .loop a => Exits pan ext a
  | .under _ a => Exits pan ext a
  | .guard _ a => Exits pan ext a
  | .recovered a h => Exits pan ext a ∨ (∃ f, Pan pan a f) ∧ Exits pan ext h
  | .finally a b => Exits pan ext a ∨ Exits pan ext b

/-- The command can leave a lock locked. -/
def Leaks (pan ext : Fun → Prop) : Cmd → Prop
  | .skip => False
  | .user _ => False
  | .seq a b => Leaks pan ext a ∨ Leaks pan ext b
  | .alt a b => Leaks pan ext a ∨ Leaks pan ext b
  | .loop a => Leaks pan ext a
  | .under _ a => Leaks pan ext a ∨ (∃ f, Pan pan a f) ∨ Exits pan ext a
  | .guard _ a => Leaks pan ext a
  | .recovered a h => Leaks pan ext a ∨ (∃ f, Pan pan a f) ∧ Leaks pan ext h
  | .finally a b => Leaks pan ext a ∨ Leaks pan ext b

variable {pan ext : Fun → Prop}

theorem done_run (pan ext : Fun → Prop) : ∀ c, ∃ t, Goexit.Run pan ext c .done [] t
  | .skip => ⟨_, .skip⟩
  | .user f => ⟨_, .ret f⟩
  | .seq a b => let ⟨_, h⟩ := done_run pan ext a; let ⟨_, k⟩ := done_run pan ext b; ⟨_, .seq h k⟩
  | .alt a _ => let ⟨_, h⟩ := done_run pan ext a; ⟨_, .left h⟩
  | .loop _ => ⟨_, .stop⟩
  | .under _ a => let ⟨_, h⟩ := done_run pan ext a; ⟨_, .under h⟩
  | .guard _ a => let ⟨_, h⟩ := done_run pan ext a; ⟨_, .guard h⟩
  | .recovered a _ => let ⟨_, h⟩ := done_run pan ext a; ⟨_, .noPanic h (.inl rfl)⟩
  | .finally a b => let ⟨_, h⟩ := done_run pan ext a; let ⟨_, k⟩ := done_run pan ext b; ⟨_, .deferred h k⟩

/-- Panics come from functions that panic only. -/
theorem panic_of_run {c : Cmd} {o : Goexit.Out} {l : List Lock} {t : List (Fun × End)} (h : Goexit.Run pan ext c o l t) : ∀ f, o = .panic f ∨ o = .panicExit f → pan f := by
  induction h with
  | skip => intro f e; simp at e
  | ret => intro f e; simp at e
  | panic g hm => intro f e; simp at e; exact e ▸ hm
  | exit => intro f e; simp at e
  | seq _ _ _ ih => exact ih
  | seqEnd _ _ ih => exact ih
  | left _ ih => exact ih
  | right _ ih => exact ih
  | stop => intro f e; simp at e
  | round _ _ _ ih => exact ih
  | roundEnd _ _ ih => exact ih
  | under _ _ => intro f e; simp at e
  | underEnd _ _ ih => exact ih
  | guard _ ih => exact ih
  | noPanic _ _ ih => exact ih
  | @recovers a h g p o l k t u _ hp _ ih1 ih2 =>
    intro f e
    apply ih2
    cases o <;> rcases hp with rfl | rfl <;> simp [Out.recover, Out.exiting, Out.whileExiting] at e <;> simp [e]
  | @deferred a b o p l k t u _ _ ih1 ih2 =>
    intro f e
    cases p with
    | done => exact ih1 f e
    | exit => simp [Out.andThen] at e
    | panic g => refine ih2 f ?_; cases o <;> simp [Out.andThen, Out.exiting] at e <;> simp [e]
    | panicExit g => refine ih2 f ?_; simp [Out.andThen] at e; simp [e]

/-- If the goroutine is not ending, no call ended it. -/
theorem exited_of_run {c : Cmd} {o : Goexit.Out} {l : List Lock} {t : List (Fun × End)} (h : Goexit.Run pan ext c o l t) : o.exiting = true ↔ ∃ f, (f, End.exited) ∈ t := by
  induction h with
  | skip => simp [Out.exiting]
  | ret => simp [Out.exiting]
  | panic g hm => simp [Out.exiting]
  | exit => simp [Out.exiting]
  | seq _ _ ih1 ih2 => simp only [Out.exiting, Bool.false_eq_true, false_iff, not_exists] at ih1; simp [ih2, ih1]
  | seqEnd _ _ ih => exact ih
  | left _ ih => exact ih
  | right _ ih => exact ih
  | stop => simp [Out.exiting]
  | round _ _ ih1 ih2 => simp only [Out.exiting, Bool.false_eq_true, false_iff, not_exists] at ih1; simp [ih2, ih1]
  | roundEnd _ _ ih => exact ih
  | under _ ih => exact ih
  | underEnd _ _ ih => exact ih
  | guard _ ih => exact ih
  | noPanic _ _ ih => exact ih
  | @recovers a h g p o l k t u _ hp _ ih1 ih2 =>
    have : (∃ f, (f, End.exited) ∈ t ++ u) ↔ (∃ f, (f, End.exited) ∈ t) ∨ (∃ f, (f, End.exited) ∈ u) := by simp [exists_or]
    rw [this, ← ih1, ← ih2]
    cases o <;> rcases hp with rfl | rfl <;> simp [Out.recover, Out.exiting, Out.whileExiting]
  | @deferred a b o p l k t u _ _ ih1 ih2 =>
    have : (∃ f, (f, End.exited) ∈ t ++ u) ↔ (∃ f, (f, End.exited) ∈ t) ∨ (∃ f, (f, End.exited) ∈ u) := by simp [exists_or]
    rw [this, ← ih1, ← ih2]
    cases o <;> cases p <;> simp [Out.andThen, Out.exiting]

/-- CallsIn that are made are calls of the command; those that end the goroutine are of functions in `ext`. -/
theorem calls_of_run {c : Cmd} {o : Goexit.Out} {l : List Lock} {t : List (Fun × End)} (h : Goexit.Run pan ext c o l t) (P : Fun → Prop) :
    ∀ e ∈ t, P e.1 → CallsIn (fun f => P f ∧ (e.2 = .exited → ext f)) c := by
  induction h with
  | skip => intro e he; simp at he
  | ret f => intro e he hP; simp at he; subst he; exact ⟨hP, nofun⟩
  | panic f => intro e he hP; simp at he; subst he; exact ⟨hP, nofun⟩
  | exit f hx => intro e he hP; simp at he; subst he; exact ⟨hP, fun _ => hx⟩
  | seq _ _ ih1 ih2 => intro e he hP; exact (List.mem_append.1 he).elim (fun he => .inl (ih1 e he hP)) (fun he => .inr (ih2 e he hP))
  | seqEnd _ _ ih => intro e he hP; exact .inl (ih e he hP)
  | left _ ih => intro e he hP; exact .inl (ih e he hP)
  | right _ ih => intro e he hP; exact .inr (ih e he hP)
  | stop => intro e he; simp at he
  | round _ _ ih1 ih2 => intro e he hP; exact (List.mem_append.1 he).elim (fun he => ih1 e he hP) (fun he => ih2 e he hP)
  | roundEnd _ _ ih => exact ih
  | under _ ih => exact ih
  | underEnd _ _ ih => exact ih
  | guard _ ih => exact ih
  | noPanic _ _ ih => intro e he hP; exact .inl (ih e he hP)
  | recovers _ _ _ ih1 ih2 => intro e he hP; exact (List.mem_append.1 he).elim (fun he => .inl (ih1 e he hP)) (fun he => .inr (ih2 e he hP))
  | deferred _ _ ih1 ih2 => intro e he hP; exact (List.mem_append.1 he).elim (fun he => .inl (ih1 e he hP)) (fun he => .inr (ih2 e he hP))

theorem calls_mono {P Q : Fun → Prop} (h : ∀ f, P f → Q f) : ∀ c, CallsIn P c → CallsIn Q c
  | .skip, hc => hc
  | .user f, hc => h f hc
  | .seq a b, hc => hc.imp (calls_mono h a) (calls_mono h b)
  | .alt a b, hc => hc.imp (calls_mono h a) (calls_mono h b)
  | .loop a, hc => calls_mono h a hc
  | .under _ a, hc => calls_mono h a hc
  | .guard _ a, hc => calls_mono h a hc
  | .recovered a b, hc => hc.imp (calls_mono h a) (calls_mono h b)
  | .finally a b, hc => hc.imp (calls_mono h a) (calls_mono h b)

theorem only_hook {c : Cmd} {o : Goexit.Out} {l : List Lock} {t : List (Fun × End)} (h : Goexit.Run pan ext c o l t) (hc : ¬ CallsIn (· ≠ .hook) c) : ∀ e ∈ t, e.1 = .hook := by
  intro e he
  by_cases h1 : e.1 = .hook
  · exact h1
  · exact absurd (calls_mono (fun _ h => h.1) _ (calls_of_run h (· ≠ .hook) e he h1)) hc

/-- Outcomes that end the process. -/
def Panics (o : Goexit.Out) (f : Fun) : Prop := o = .panic f ∨ o = .panicExit f

theorem pan_of_run' {c : Cmd} {o : Goexit.Out} {l : List Lock} {t : List (Fun × End)} (h : Goexit.Run pan ext c o l t) : ∀ f, Panics o f → Pan pan c f := by
  induction h with
  | skip => intro f e; simp [Panics] at e
  | ret => intro f e; simp [Panics] at e
  | panic g hm => intro f e; simp [Panics] at e; subst e; exact ⟨rfl, hm⟩
  | exit => intro f e; simp [Panics] at e
  | seq _ _ _ ih => intro f e; exact .inr (ih f e)
  | seqEnd _ _ ih => intro f e; exact .inl (ih f e)
  | left _ ih => intro f e; exact .inl (ih f e)
  | right _ ih => intro f e; exact .inr (ih f e)
  | stop => intro f e; simp [Panics] at e
  | round _ _ _ ih => intro f e; exact ih f e
  | roundEnd _ _ ih => intro f e; exact ih f e
  | under _ _ => intro f e; simp [Panics] at e
  | underEnd _ _ ih => intro f e; exact ih f e
  | guard _ ih => intro f e; exact ih f e
  | noPanic _ h _ => intro f e; rcases h with rfl | rfl <;> simp [Panics] at e
  | @recovers a h g p o l k t u _ hp _ ih1 ih2 =>
    intro f e
    refine ⟨⟨g, ih1 g hp⟩, ih2 f ?_⟩
    cases o <;> rcases hp with rfl | rfl <;> simp [Panics, Out.recover, Out.exiting, Out.whileExiting] at e <;> simp [Panics, e]
  | @deferred a b o p l k t u _ _ ih1 ih2 =>
    intro f e
    cases p with
    | done => exact .inl (ih1 f e)
    | exit => simp [Panics, Out.andThen] at e
    | panic g => refine .inr (ih2 f ?_); cases o <;> simp [Panics, Out.andThen, Out.exiting] at e <;> simp [Panics, e]
    | panicExit g => refine .inr (ih2 f ?_); simp [Panics, Out.andThen] at e; simp [Panics, e]

theorem run_of_pan' (ext : Fun → Prop) {c : Cmd} {o : Unwind.Out} {l : List Lock} (h : Unwind.Run pan c o l) :
    ∃ t, Goexit.Run pan ext c (match o with | .done => .done | .panic f => .panic f) l t := by
  induction h with
  | skip => exact ⟨_, .skip⟩
  | ret f => exact ⟨_, .ret f⟩
  | panic f hf => exact ⟨_, .panic f hf⟩
  | seq _ _ ih1 ih2 => obtain ⟨_, h1⟩ := ih1; obtain ⟨_, h2⟩ := ih2; exact ⟨_, .seq h1 h2⟩
  | seqPanic _ ih => obtain ⟨_, h⟩ := ih; exact ⟨_, .seqEnd h (by simp)⟩
  | left _ ih => obtain ⟨_, h⟩ := ih; exact ⟨_, .left h⟩
  | right _ ih => obtain ⟨_, h⟩ := ih; exact ⟨_, .right h⟩
  | stop => exact ⟨_, .stop⟩
  | round _ _ ih1 ih2 => obtain ⟨_, h1⟩ := ih1; obtain ⟨_, h2⟩ := ih2; exact ⟨_, .round h1 h2⟩
  | roundPanic _ ih => obtain ⟨_, h⟩ := ih; exact ⟨_, .roundEnd h (by simp)⟩
  | under _ ih => obtain ⟨_, h⟩ := ih; exact ⟨_, .under h⟩
  | underPanic _ ih => obtain ⟨_, h⟩ := ih; exact ⟨_, .underEnd h (by simp)⟩
  | guard _ ih => obtain ⟨_, h⟩ := ih; exact ⟨_, .guard h⟩
  | noPanic _ ih => obtain ⟨_, h⟩ := ih; exact ⟨_, .noPanic h (.inl rfl)⟩
  | recovers _ _ ih1 ih2 => obtain ⟨_, h1⟩ := ih1; obtain ⟨_, h2⟩ := ih2; exact ⟨_, .recovers h1 (.inl rfl) h2⟩
  | deferred _ _ ih1 ih2 => obtain ⟨_, h1⟩ := ih1; obtain ⟨_, h2⟩ := ih2; exact ⟨_, .deferred h1 h2⟩
  | @deferredPanic a b o f l k _ _ ih1 ih2 =>
    obtain ⟨_, h1⟩ := ih1
    obtain ⟨t, h2⟩ := ih2
    have := Goexit.Run.deferred h1 h2
    cases o <;> exact ⟨_, this⟩

theorem exits_of_run {c : Cmd} {o : Goexit.Out} {l : List Lock} {t : List (Fun × End)} (h : Goexit.Run pan ext c o l t) : o.exiting = true → Exits pan ext c := by
  induction h with
  | skip => intro e; simp [Out.exiting] at e
  | ret => intro e; simp [Out.exiting] at e
  | panic g hm => intro e; simp [Out.exiting] at e
  | exit _ h => intro _; exact h
  | seq _ _ _ ih => intro e; exact .inr (ih e)
  | seqEnd _ _ ih => intro e; exact .inl (ih e)
  | left _ ih => intro e; exact .inl (ih e)
  | right _ ih => intro e; exact .inr (ih e)
  | stop => intro e; simp [Out.exiting] at e
  | round _ _ _ ih => exact ih
  | roundEnd _ _ ih => exact ih
  | under _ _ => intro e; simp [Out.exiting] at e
  | underEnd _ _ ih => exact ih
  | guard _ ih => exact ih
  | noPanic _ _ ih => intro e; exact .inl (ih e)
  | @recovers a h g p o l k t u ha hp _ ih1 ih2 =>
    intro e
    rcases hp with rfl | rfl
    · exact .inr ⟨⟨g, pan_of_run' ha g (.inl rfl)⟩, ih2 e⟩
    · exact .inl (ih1 rfl)
  | @deferred a b o p l k t u _ _ ih1 ih2 =>
    intro e
    cases p with
    | done => exact .inl (ih1 e)
    | exit => exact .inr (ih2 rfl)
    | panic g =>
      refine .inl (ih1 ?_)
      cases o <;> simp [Out.andThen, Out.exiting] at e ⊢
    | panicExit g => exact .inr (ih2 rfl)

theorem run_of_exits : ∀ {c : Cmd}, Exits pan ext c → ∃ l t, Goexit.Run pan ext c .exit l t
  | .skip, h => h.elim
  | .user f, h => ⟨_, _, .exit f h⟩
  | .seq _ _, .inl h => let ⟨_, _, h⟩ := run_of_exits h; ⟨_, _, .seqEnd h (by simp)⟩
  | .seq a _, .inr h => let ⟨_, _, h⟩ := run_of_exits h; let ⟨_, k⟩ := done_run pan ext a; ⟨_, _, .seq k h⟩
  | .alt _ _, .inl h => let ⟨_, _, h⟩ := run_of_exits h; ⟨_, _, .left h⟩
  | .alt _ _, .inr h => let ⟨_, _, h⟩ := run_of_exits h; ⟨_, _, .right h⟩
  | .loop a, h => let ⟨_, _, h⟩ := run_of_exits (c := a) h; ⟨_, _, .roundEnd h (by simp)⟩
  | .under _ a, h => let ⟨_, _, h⟩ := run_of_exits (c := a) h; ⟨_, _, .underEnd h (by simp)⟩
  | .guard _ a, h => let ⟨_, _, h⟩ := run_of_exits (c := a) h; ⟨_, _, .guard h⟩
  | .recovered _ _, .inl h => let ⟨_, _, h⟩ := run_of_exits h; ⟨_, _, .noPanic h (.inr rfl)⟩
  | .recovered _ _, .inr ⟨⟨_, hp⟩, h⟩ =>
    let ⟨_, hp⟩ := run_of_pan hp
    let ⟨_, k⟩ := run_of_pan' ext hp
    let ⟨_, _, h⟩ := run_of_exits h
    ⟨_, _, .recovers k (.inl rfl) h⟩
  | .finally _ b, .inl h => let ⟨_, _, h⟩ := run_of_exits h; let ⟨_, k⟩ := done_run pan ext b; ⟨_, _, .deferred h k⟩
  | .finally a _, .inr h => let ⟨_, _, h⟩ := run_of_exits h; let ⟨_, k⟩ := done_run pan ext a; ⟨_, _, .deferred k h⟩

theorem leaks_of_run {c : Cmd} {o : Goexit.Out} {l : List Lock} {t : List (Fun × End)} (h : Goexit.Run pan ext c o l t) : l ≠ [] → Leaks pan ext c := by
  have app {α : Type} {l k : List α} (h : l ++ k ≠ []) : l ≠ [] ∨ k ≠ [] := by
    cases l with
    | nil => exact .inr h
    | cons => exact .inl (by simp)
  induction h with
  | skip => intro e; exact absurd rfl e
  | ret => intro e; exact absurd rfl e
  | panic => intro e; exact absurd rfl e
  | exit => intro e; exact absurd rfl e
  | seq _ _ ih1 ih2 => intro e; exact (app e).imp ih1 ih2
  | seqEnd _ _ ih => intro e; exact .inl (ih e)
  | left _ ih => intro e; exact .inl (ih e)
  | right _ ih => intro e; exact .inr (ih e)
  | stop => intro e; exact absurd rfl e
  | round _ _ ih1 ih2 => intro e; exact (app e).elim ih1 ih2
  | roundEnd _ _ ih => exact ih
  | under _ ih => intro e; exact .inl (ih e)
  | @underEnd x a o l t h ho ih =>
    intro _
    cases o with
    | done => exact absurd rfl ho
    | panic f => exact .inr (.inl ⟨f, pan_of_run' h f (.inl rfl)⟩)
    | panicExit f => exact .inr (.inl ⟨f, pan_of_run' h f (.inr rfl)⟩)
    | exit => exact .inr (.inr (exits_of_run h rfl))
  | guard _ ih => exact ih
  | noPanic _ _ ih => intro e; exact .inl (ih e)
  | recovers h1 hp _ ih1 ih2 => intro e; exact (app e).imp ih1 (fun e => ⟨⟨_, pan_of_run' h1 _ hp⟩, ih2 e⟩)
  | deferred _ _ ih1 ih2 => intro e; exact (app e).imp ih1 ih2

theorem run_of_leaks : ∀ {c : Cmd}, Leaks pan ext c → ∃ o l t, Goexit.Run pan ext c o l t ∧ l ≠ []
  | .skip, h => h.elim
  | .user _, h => h.elim
  | .seq _ b, .inl h => by
    obtain ⟨o, l, t, h, hl⟩ := run_of_leaks h
    by_cases ho : o = .done
    · subst ho
      obtain ⟨_, k⟩ := done_run pan ext b
      exact ⟨_, _, _, .seq h k, by simpa using hl⟩
    · exact ⟨_, _, _, .seqEnd h ho, hl⟩
  | .seq a _, .inr h => let ⟨_, _, _, h, hl⟩ := run_of_leaks h; let ⟨_, k⟩ := done_run pan ext a; ⟨_, _, _, .seq k h, hl⟩
  | .alt _ _, .inl h => let ⟨_, _, _, h, hl⟩ := run_of_leaks h; ⟨_, _, _, .left h, hl⟩
  | .alt _ _, .inr h => let ⟨_, _, _, h, hl⟩ := run_of_leaks h; ⟨_, _, _, .right h, hl⟩
  | .loop a, h => by
    obtain ⟨o, l, t, h, hl⟩ := run_of_leaks (c := a) h
    by_cases ho : o = .done
    · subst ho
      exact ⟨_, _, _, .round h .stop, by simpa using hl⟩
    · exact ⟨_, _, _, .roundEnd h ho, hl⟩
  | .under _ _, .inl h => by
    obtain ⟨o, l, t, h, hl⟩ := run_of_leaks h
    by_cases ho : o = .done
    · subst ho
      exact ⟨_, _, _, .under h, hl⟩
    · exact ⟨_, _, _, .underEnd h ho, by simp⟩
  | .under _ _, .inr (.inl ⟨_, h⟩) =>
    let ⟨_, hp⟩ := run_of_pan h
    let ⟨_, k⟩ := run_of_pan' ext hp
    ⟨_, _, _, .underEnd k (by simp), by simp⟩
  | .under _ _, .inr (.inr h) => let ⟨_, _, h⟩ := run_of_exits h; ⟨_, _, _, .underEnd h (by simp), by simp⟩
  | .guard _ a, h => let ⟨_, _, _, h, hl⟩ := run_of_leaks (c := a) h; ⟨_, _, _, .guard h, hl⟩
  | .recovered _ b, .inl h => by
    obtain ⟨o, l, t, h, hl⟩ := run_of_leaks h
    obtain ⟨_, k⟩ := done_run pan ext b
    cases o with
    | done => exact ⟨_, _, _, .noPanic h (.inl rfl), hl⟩
    | exit => exact ⟨_, _, _, .noPanic h (.inr rfl), hl⟩
    | panic f => exact ⟨_, _, _, .recovers h (.inl rfl) k, by simpa using hl⟩
    | panicExit f => exact ⟨_, _, _, .recovers h (.inr rfl) k, by simpa using hl⟩
  | .recovered _ _, .inr ⟨⟨_, hp⟩, h⟩ =>
    let ⟨_, hp⟩ := run_of_pan hp
    let ⟨_, k⟩ := run_of_pan' ext hp
    let ⟨_, _, _, h, hl⟩ := run_of_leaks h
    ⟨_, _, _, .recovers k (.inl rfl) h, by simp [hl]⟩
  | .finally _ b, .inl h => let ⟨_, _, _, h, hl⟩ := run_of_leaks h; let ⟨_, k⟩ := done_run pan ext b; ⟨_, _, _, .deferred h k, by simp [hl]⟩
  | .finally a _, .inr h => let ⟨_, _, _, h, hl⟩ := run_of_leaks h; let ⟨_, k⟩ := done_run pan ext a; ⟨_, _, _, .deferred k h, by simp [hl]⟩

/-- Whether the process can end does not depend on which functions end their goroutine: the panics of C125 end it, nothing else. -/
theorem C144_process (pan ext : Fun → Prop) (g : Go) : (∃ o f l t, Goexit.Run pan ext (code g) o l t ∧ (o = .panic f ∨ o = .panicExit f)) ↔ CanEnd pan g := by
  rw [canEnd_iff]
  constructor
  · rintro ⟨o, f, l, t, h, ho⟩
    exact ⟨f, pan_of_run' h f ho⟩
  · rintro ⟨f, h⟩
    obtain ⟨l, h⟩ := run_of_pan h
    obtain ⟨t, h⟩ := run_of_pan' ext h
    exact ⟨_, f, l, t, h, .inl rfl⟩

/-- Exactly these functions end a goroutine of the library: those it calls, whether panics of theirs are recovered or not, and the hook of the logger wherever it logs. -/
theorem C144_exact (pan ext : Fun → Prop) (g : Go) : (∃ l t, Goexit.Run pan ext (code g) .exit l t) ↔ match g with
    | .worker => ext .handler ∨ ext .slice ∨ ext .complete ∨ ext .hook
    | .direct => ext .handler ∨ ext .slice ∨ ext .hook
    | .reader | .readerWs => ext .interceptor ∨ ext .hook
    | .startTcp | .startKcp | .startWs => ext .connStart ∨ ext .connStop ∨ ext .hook
    | .closer => ext .closeCb ∨ pan .closeCb ∧ ext .hook
    | .heartbeat => ext .notAlive ∨ ext .beat ∨ ext .makeMsg ∨ ext .pack ∨ ext .hook
    | .async => ext .asyncOp ∨ pan .asyncOp ∧ ext .hook
    | .timer => ext .timer ∨ pan .timer ∧ ext .hook
    | .handshake => ext .auth ∨ ext .hook
    | .logging | .writer => ext .hook := by
  have key : (∃ l t, Goexit.Run pan ext (code g) .exit l t) ↔ Exits pan ext (code g) := ⟨fun ⟨_, _, h⟩ => exits_of_run h rfl, run_of_exits⟩
  rw [key]
  cases g <;> simp [code, Exits, Pan, log, opt, doFunc, doMsg, doSlices, slices, execute, round, useWorker, freeWorker, callHook, finish, finalizerTcp, finalizer, start, sendMsg, sendMsgKcp, sendMsgWs, sendAny, Unwind.writer,
    or_and_right, exists_or] <;> grind

/-- No goroutine of the library leaves a lock locked, whatever panics or ends its goroutine. -/
theorem C144_locks (pan ext : Fun → Prop) (g : Go) (o : Goexit.Out) (l : List Lock) (t : List (Fun × End)) (h : Goexit.Run pan ext (code g) o l t) : l = [] := by
  by_cases hl : l = []
  · exact hl
  · have := leaks_of_run h hl
    cases g <;> simp [code, Leaks, log, opt, doFunc, doMsg, doSlices, slices, execute, round, useWorker, freeWorker, callHook, finish, finalizerTcp, finalizer, start, sendMsg, sendMsgKcp, sendMsgWs, sendAny, Unwind.writer] at this

/-- Exactly these calls leave the lock of a shard locked. -/
theorem C144_api (pan ext : Fun → Prop) (a : Api) : (∃ o l t, Goexit.Run pan ext (api a) o l t ∧ l ≠ []) ↔ match a with
    | .iterCb => pan .iter ∨ ext .iter
    | .range => pan .iter ∨ ext .iter ∨ pan .hook ∨ ext .hook
    | .removeCb => pan .remove ∨ ext .remove
    | .notifyAll => pan .pack ∨ ext .pack ∨ pan .hook ∨ ext .hook
    | .sendMsg | .log => False := by
  have key : (∃ o l t, Goexit.Run pan ext (api a) o l t ∧ l ≠ []) ↔ Leaks pan ext (api a) := ⟨fun ⟨_, _, _, h, hl⟩ => leaks_of_run h hl, run_of_leaks⟩
  rw [key]
  cases a <;> simp [api, Leaks, Exits, Pan, log, opt, sendMsg, sendMsgKcp, sendMsgWs, sendAny, exists_or] <;> grind

theorem append_split {α : Type} {t u pre post : List α} {e : α} (h : t ++ u = pre ++ e :: post) : (∃ q, t = pre ++ e :: q ∧ post = q ++ u) ∨ (∃ q, u = q ++ e :: post ∧ pre = t ++ q) := by
  rcases List.append_eq_append_iff.1 h with ⟨q, h1, h2⟩ | ⟨q, h1, h2⟩
  · exact .inr ⟨q, h2, h1⟩
  · cases q with
    | nil => exact .inr ⟨[], by simpa using h2.symm, by simpa using h1.symm⟩
    | cons x q =>
      simp only [List.cons_append, List.cons.injEq] at h2
      exact .inl ⟨q, by rw [h1, h2.1], h2.2⟩

/-- After a call that ended the goroutine, the hook of the logger is called and nothing else. -/
theorem hookOnly_run {c : Cmd} {o : Goexit.Out} {l : List Lock} {t : List (Fun × End)} (h : Goexit.Run pan ext c o l t) : HookOnly c → ∀ pre f post, t = pre ++ (f, End.exited) :: post → ∀ e ∈ post, e.1 = .hook := by
  have none {c : Cmd} {l : List Lock} {t pre post : List (Fun × End)} {f : Fun} (h : Goexit.Run pan ext c .done l t) (ht : t = pre ++ (f, End.exited) :: post) : False := by
    have := (exited_of_run h).2 ⟨f, by simp [ht]⟩
    simp [Out.exiting] at this
  induction h with
  | skip => intro _ pre f post ht; simp at ht
  | ret => intro _ pre f post ht; cases pre <;> simp at ht
  | panic => intro _ pre f post ht; cases pre <;> simp at ht
  | exit => intro _ pre f post ht; cases pre <;> simp at ht; simp [ht.2]
  | seq h1 _ _ ih2 =>
    intro hc pre f post ht
    rcases append_split ht with ⟨q, h, _⟩ | ⟨q, h, _⟩
    · exact (none h1 h).elim
    · exact ih2 hc.2 q f post h
  | seqEnd _ _ ih => intro hc; exact ih hc.1
  | left _ ih => intro hc; exact ih hc.1
  | right _ ih => intro hc; exact ih hc.2
  | stop => intro _ pre f post ht; simp at ht
  | round h1 _ _ ih2 =>
    intro hc pre f post ht
    rcases append_split ht with ⟨q, h, _⟩ | ⟨q, h, _⟩
    · exact (none h1 h).elim
    · exact ih2 hc q f post h
  | roundEnd _ _ ih => exact ih
  | under _ ih => exact ih
  | underEnd _ _ ih => exact ih
  | guard _ ih => exact ih
  | noPanic _ _ ih => intro hc; exact ih hc.1
  | recovers _ _ hh ih1 ih2 =>
    intro hc pre f post ht
    rcases append_split ht with ⟨q, h, hp⟩ | ⟨q, h, _⟩
    · intro e he
      rw [hp] at he
      exact (List.mem_append.1 he).elim (ih1 hc.1 pre f q h e) (only_hook hh hc.2.2 e)
    · exact ih2 hc.2.1 q f post h
  | deferred _ hh ih1 ih2 =>
    intro hc pre f post ht
    rcases append_split ht with ⟨q, h, hp⟩ | ⟨q, h, _⟩
    · intro e he
      rw [hp] at he
      exact (List.mem_append.1 he).elim (ih1 hc.1 pre f q h e) (only_hook hh hc.2.2 e)
    · exact ih2 hc.2.1 q f post h

/-- Where nothing is deferred but recovering, the call that ended the goroutine is the last one. -/
theorem noFin_run {c : Cmd} {o : Goexit.Out} {l : List Lock} {t : List (Fun × End)} (h : Goexit.Run pan ext c o l t) :
    NoFin c → (∀ f, o ≠ .panicExit f) ∧ ∀ pre f post, t = pre ++ (f, End.exited) :: post → post = [] := by
  have none {c : Cmd} {o : Goexit.Out} {l : List Lock} {t pre post : List (Fun × End)} {f : Fun} (h : Goexit.Run pan ext c o l t) (ho : o.exiting = false) (ht : t = pre ++ (f, End.exited) :: post) : False := by
    have := (exited_of_run h).2 ⟨f, by simp [ht]⟩
    rw [ho] at this
    cases this
  induction h with
  | skip => intro _; exact ⟨by simp, fun pre f post ht => by simp at ht⟩
  | ret => intro _; exact ⟨by simp, fun pre f post ht => by cases pre <;> simp at ht⟩
  | panic => intro _; exact ⟨by simp, fun pre f post ht => by cases pre <;> simp at ht⟩
  | exit => intro _; exact ⟨by simp, fun pre f post ht => by cases pre <;> simp at ht; exact ht.2.symm ▸ rfl⟩
  | seq h1 _ _ ih2 =>
    intro hc
    refine ⟨(ih2 hc.2).1, fun pre f post ht => ?_⟩
    rcases append_split ht with ⟨q, h, _⟩ | ⟨q, h, _⟩
    · exact (none h1 rfl h).elim
    · exact (ih2 hc.2).2 q f post h
  | seqEnd _ _ ih => intro hc; exact ih hc.1
  | left _ ih => intro hc; exact ih hc.1
  | right _ ih => intro hc; exact ih hc.2
  | stop => intro _; exact ⟨by simp, fun pre f post ht => by simp at ht⟩
  | round h1 _ _ ih2 =>
    intro hc
    refine ⟨(ih2 hc).1, fun pre f post ht => ?_⟩
    rcases append_split ht with ⟨q, h, _⟩ | ⟨q, h, _⟩
    · exact (none h1 rfl h).elim
    · exact (ih2 hc).2 q f post h
  | roundEnd _ _ ih => exact ih
  | under _ ih => exact ih
  | underEnd _ _ ih => exact ih
  | guard _ ih => exact ih
  | noPanic _ _ ih => intro hc; exact ih hc.1
  | recovers h1 hp _ ih1 ih2 =>
    intro hc
    rcases hp with rfl | rfl
    · refine ⟨fun f => (ih2 hc.2).1 f, fun pre f post ht => ?_⟩
      rcases append_split ht with ⟨q, h, _⟩ | ⟨q, h, _⟩
      · exact (none h1 rfl h).elim
      · exact (ih2 hc.2).2 q f post h
    · exact absurd rfl ((ih1 hc.1).1 _)
  | deferred => intro hc; exact hc.elim

/-- When a function of the user ends a goroutine of the library, that goroutine calls no further function of the user: a worker handles no further message, `Start` does not call the stop hook after a start hook that
did not return, the heartbeat, the asynchronous worker, the remaining close callbacks are over. Readers and writers still log that they end. -/
theorem C144_last (pan ext : Fun → Prop) (g : Go) (o : Goexit.Out) (l : List Lock) (t pre post : List (Fun × End)) (f : Fun) (h : Goexit.Run pan ext (code g) o l t) (ht : t = pre ++ (f, .exited) :: post) :
    ext f ∧ (∀ e ∈ post, e.1 = .hook) ∧ (g ≠ .reader → g ≠ .readerWs → g ≠ .writer → post = [] ∧ o = .exit) := by
  refine ⟨?_, hookOnly_run h ?_ pre f post ht, fun h1 h2 h3 => ?_⟩
  · have := calls_of_run h (· = f) (f, .exited) (by simp [ht]) rfl
    have := calls_mono (Q := fun _ => ext f) (fun g (hg : g = f ∧ (End.exited = .exited → ext g)) => hg.1 ▸ hg.2 rfl) _ this
    have all : ∀ c, CallsIn (fun _ => ext f) c → ext f := by
      intro c
      induction c with
      | skip => exact False.elim
      | user => exact id
      | seq a b iha ihb => exact fun h => h.elim iha ihb
      | alt a b iha ihb => exact fun h => h.elim iha ihb
      | loop a ih => exact ih
      | under _ a ih => exact ih
      | guard _ a ih => exact ih
      | recovered a b iha ihb => exact fun h => h.elim iha ihb
      | «finally» a b iha ihb => exact fun h => h.elim iha ihb
    exact all _ this
  · cases g <;> simp [code, HookOnly, CallsIn, log, opt, doFunc, doMsg, doSlices, slices, execute, round, useWorker, freeWorker, callHook, finish, finalizerTcp, finalizer, start, sendMsg, sendMsgKcp, sendMsgWs, sendAny, Unwind.writer]
  · have hn : NoFin (code g) := by
      cases g <;> simp [code, NoFin, log, opt, doFunc, doMsg, doSlices, slices, useWorker, freeWorker, callHook, finish, finalizerTcp, finalizer, start, sendMsg, sendMsgKcp, sendMsgWs, sendAny] at h1 h2 h3 ⊢
    refine ⟨(noFin_run h hn).2 pre f post ht, ?_⟩
    have := (exited_of_run h).2 ⟨f, by simp [ht]⟩
    cases o with
    | exit => rfl
    | panicExit f => exact absurd rfl ((noFin_run h hn).1 f)
    | done => simp [Out.exiting] at this
    | panic => simp [Out.exiting] at this

/-- The property as stated is false: a handler that ends its goroutine ends the worker, a panicking handler does not. -/
theorem C144_refuted : ∃ (f : Fun) (l : List Lock) (t : List (Fun × End)), Goexit.Run (fun _ => False) (· = f) (code .worker) .exit l t ∧ ∀ o l t, Goexit.Run (· = f) (fun _ => False) (code .worker) o l t → o = .done := by
  obtain ⟨l, t, h⟩ := (C144_exact (fun _ => False) (· = .handler) .worker).2 (.inl rfl)
  refine ⟨.handler, l, t, h, fun o l t h => ?_⟩
  cases o with
  | done => rfl
  | panic f => have := (C125_exact _ _).1 ((C144_process _ _ _).1 ⟨_, f, l, t, h, .inl rfl⟩); simp at this
  | panicExit f => have := (C125_exact _ _).1 ((C144_process _ _ _).1 ⟨_, f, l, t, h, .inr rfl⟩); simp at this
  | exit => have := (C144_exact _ _ _).1 ⟨l, t, h⟩; simp at this

/-- If no function panics and the functions of the user that a goroutine calls do not end it, it goes on: other functions may do so. -/
theorem C144_partial (pan ext : Fun → Prop) (g : Go) (hp : ¬ CanEnd pan g) (hx : ∀ f, CallsIn (· = f) (code g) → ¬ ext f) (o : Goexit.Out) (l : List Lock) (t : List (Fun × End)) (h : Goexit.Run pan ext (code g) o l t) :
    o = .done ∧ l = [] ∧ ∀ e ∈ t, e.2 ≠ .exited := by
  have none : ∀ e ∈ t, e.2 ≠ .exited := by
    intro e he hx'
    have h1 := calls_mono (Q := (· = e.1)) (fun g hg => hg.1) _ (calls_of_run h (· = e.1) e he rfl)
    obtain ⟨pre, post, ht⟩ := List.append_of_mem he
    exact hx e.1 h1 (C144_last pan ext g o l t pre post e.1 h (by rw [ht, ← hx'])).1
  refine ⟨?_, C144_locks pan ext g o l t h, none⟩
  have ne : o.exiting = false := by
    cases ho : o.exiting with
    | false => rfl
    | true => obtain ⟨f, hf⟩ := (exited_of_run h).1 ho; exact absurd rfl (none _ hf)
  cases o with
  | done => rfl
  | panic f => exact absurd ((C144_process pan ext g).1 ⟨_, f, l, t, h, .inl rfl⟩) hp
  | exit => simp [Out.exiting] at ne
  | panicExit f => simp [Out.exiting] at ne

/-- The round of a worker in which a handler panics. -/
theorem panicked_round (pan ext : Fun → Prop) (h : pan .slice) : Goexit.Run pan ext doSlices .done [] [(.slice, .panicked), (.hook, .returned)] :=
  Goexit.Run.recovers (p := .panic .slice) (o := .done) (l := []) (k := []) (t := [(.slice, .panicked)]) (u := [(.hook, .returned)]) (.right (.left (.roundEnd (.panic _ h) (by simp)))) (.inl rfl) (.guard (.ret _))

/-- A handler ends its worker after another has panicked; the worker has called nothing since. -/
example : Goexit.Run (· = .slice) (· = .handler) (code .worker) .exit [] [(.hook, .returned), (.slice, .panicked), (.hook, .returned), (.handler, .exited)] :=
  .seq (l := []) (t := [(.hook, .returned)]) (.guard (.ret _)) (.round (l := []) (t := [(.slice, .panicked), (.hook, .returned)]) (.right (.right (.right (panicked_round _ _ rfl))))
    (.roundEnd (.right (.right (.left (.noPanic (.right (.exit _ rfl)) (.inr rfl))))) (by simp)))

/-- The hypotheses of `C144_partial` can be met: a handler panics, interceptors may end their goroutine. -/
example : ¬ CanEnd (· = .slice) .worker ∧ (∀ f, CallsIn (· = f) (code .worker) → ¬ (f = .interceptor)) ∧
    Goexit.Run (· = .slice) (· = .interceptor) (code .worker) .done [] [(.hook, .returned), (.slice, .panicked), (.hook, .returned)] := by
  refine ⟨fun h => by simpa using (C125_exact _ _).1 h, fun f h e => ?_,
    .seq (l := []) (t := [(.hook, .returned)]) (.guard (.ret _)) (.round (l := []) (t := [(.slice, .panicked), (.hook, .returned)]) (.right (.right (.right (panicked_round _ _ rfl)))) .stop)⟩
  subst e
  simp [code, CallsIn, log, doFunc, doMsg, doSlices, slices] at h

end Zinx.Props
