import Verif.Props.Log
import Verif.Props.ConnMgr
import Verif.Props.Request

/-!
# Exact conditions for C60, C65 and C69
-/

namespace Zinx.Props

open Zinx

section C60
open Zinx.Log

/-- **C60, the exact condition.** Every call ends in one of two ways. A call of `Stack`, or of another method whose level is not below the isolation level, hands out one piece of output: a header, the text,
and a newline exactly if the text is not empty and lacks one; then it returns, exits or panics as its method says. Every other call does nothing. -/
theorem C60_exact (c : Logger) (x : Ctx) (m : Method) (s : Bytes) :
    ((m = .stack ∨ c.isolation ≤ rank m) → ∃ o h, call c x m s = some ([o], afterwards m) ∧ o.bytes = h ++ s ++ (if s ≠ [] ∧ s.getLast? ≠ some 10 then [10] else []) ∧
      o.sink = (if c.hasFile then .file else .stderr) ∧ o.hooked = (if c.hasHook then some o.bytes else none)) ∧
    (¬ (m = .stack ∨ c.isolation ≤ rank m) → call c x m s = some ([], .returns)) := by
  obtain ⟨h, e⟩ := header_total c.pre c.flag x.time (if hasAny c.flag (bitShortFile ||| bitLongFile) then x.file else [])
    (if hasAny c.flag (bitShortFile ||| bitLongFile) then x.line else 0) m
  have e2 : (if s.length > 0 ∧ s.getLast? ≠ some 10 then [10] else ([] : Bytes)) = if s ≠ [] ∧ s.getLast? ≠ some 10 then [10] else [] := by
    cases s with
    | nil => rfl
    | cons a l => simp
  have eo : ∃ o, outPut c x m.level s = some o ∧ o.bytes = h ++ s ++ (if s ≠ [] ∧ s.getLast? ≠ some 10 then [10] else []) ∧
      o.sink = (if c.hasFile then .file else .stderr) ∧ o.hooked = (if c.hasHook then some o.bytes else none) := by
    refine ⟨⟨if c.hasFile then .file else .stderr, h ++ s ++ (if s ≠ [] ∧ s.getLast? ≠ some 10 then [10] else []),
      if c.hasHook then some (h ++ s ++ (if s ≠ [] ∧ s.getLast? ≠ some 10 then [10] else [])) else none⟩, ?_, rfl, rfl, rfl⟩
    unfold outPut
    dsimp only
    rw [e, e2]
    rfl
  obtain ⟨o, eo, hb, hsk, hh⟩ := eo
  constructor
  · intro hl
    refine ⟨o, h, ?_, hb, hsk, hh⟩
    by_cases hm : m = .stack
    · subst hm; unfold call; dsimp only; rw [eo]; rfl
    · have hl := hl.resolve_left hm
      have hv : verifyLogIsolation c m.level = false := by
        unfold verifyLogIsolation
        rw [decide_eq_false_iff_not]
        cases m <;> simp only [rank, Method.level] at * <;> omega
      cases m <;> first | exact absurd rfl hm | (unfold call; dsimp only; rw [hv, eo]; rfl)
  · intro hl
    have hm : m ≠ .stack := fun h => hl (.inl h)
    have hl : ¬ c.isolation ≤ rank m := fun h => hl (.inr h)
    have hv : verifyLogIsolation c m.level = true := by
      unfold verifyLogIsolation
      rw [decide_eq_true_iff]
      cases m <;> simp only [rank, Method.level] at * <;> omega
    cases m <;> first | exact absurd rfl hm | (unfold call; dsimp only; rw [hv]; rfl)

example : ¬ (Method.warn = .stack ∨ (3 : Int) ≤ rank .warn) ∧ (Method.stack = .stack ∨ (9 : Int) ≤ rank .stack) ∧ (Method.error = .stack ∨ (3 : Int) ≤ rank .error) := by decide

end C60

section C65
open Zinx.ConnMgr Zinx.ShardMap

/-- **C65, the exact condition.** A history of calls of the notifier is as the property says exactly if in none of its broadcasts a send failed. -/
theorem C65_exact {ok : Nat → Bool} {ls : List (NOp × NRes)} {s : Shards Bytes Nat} (h : Steps (NCall ok) newNotify ls s) :
    (∃ m, Steps (Spec.ConnMgr.NCall ok) (fun _ => none) ls m) ↔ ∀ to failed, (NOp.sendAll, NRes.sent to failed) ∈ ls → ∀ c ∈ to, ok c = true := by
  have e : byId newNotify = fun _ => none := by
    funext i; unfold byId newNotify; exact create_get _ _ _
  constructor
  · rintro ⟨m, hm⟩ to failed hin c hc
    have hf : failed = false := by
      have : ∀ l ∈ ls, ∀ to failed, l = (NOp.sendAll, NRes.sent to failed) → failed = false := by
        clear e hm hin
        generalize newNotify = s0 at h
        induction h with
        | nil => nofun
        | cons h1 _ ih =>
          intro l hl
          rcases List.mem_cons.1 hl with rfl | hl
          · intro to failed e; cases h1 <;> cases e; rfl
          · exact ih l hl
      exact this _ hin _ _ rfl
    subst hf
    clear e h
    generalize (fun _ => none : Spec.ConnMgr.Notify) = m0 at hm
    induction hm with
    | nil => cases hin
    | cons h1 _ ih =>
      rcases List.mem_cons.1 hin with rfl | hin
      · generalize hl : (NOp.sendAll, NRes.sent to false) = l at h1
        cases h1 <;> cases hl
        rename_i l hle hfl
        obtain ⟨x, hx, rfl⟩ := List.mem_map.1 hc
        cases hx' : ok x.2 with
        | true => rfl
        | false => exact absurd (hfl.2 ⟨x, hx, hx'⟩) (by simp)
      · exact ih hin
  · intro hall
    have gen : ∀ {s t : Shards Bytes Nat} {ls : List (NOp × NRes)}, Steps (NCall ok) s ls t → Wf s → DecKeys s →
        (∀ to failed, (NOp.sendAll, NRes.sent to failed) ∈ ls → ∀ c ∈ to, ok c = true) → Steps (Spec.ConnMgr.NCall ok) (byId s) ls (byId t) := by
      intro s t ls h
      induction h with
      | nil => intro _ _ _; exact .nil _
      | @cons s t u l ls h1 _ ih =>
        intro w d ha
        obtain ⟨w', d', c⟩ := ncall_spec w d h1 (by
          intro hl id c hid
          obtain ⟨o, r⟩ := l
          dsimp only at hl
          subst hl
          cases h1 with
          | sendAll order hp =>
            obtain ⟨l, hle, e⟩ := entries_byId w d hp
            refine ha _ _ (List.mem_cons_self ..) c ?_
            rw [e, List.map_map]
            exact List.mem_map.2 ⟨(id, c), (hle.2 id c).2 hid, rfl⟩)
        exact .cons c (ih w' d' fun to failed hin => ha to failed (List.mem_cons_of_mem _ hin))
    have := gen h (create_wf _ _ (by decide)) (create_decKeys _ _) hall
    rw [e] at this
    exact ⟨_, this⟩

/-- A history with a broadcast, of which the send to connection 5 works. -/
example : ∃ s, Steps (NCall (fun c => c == 5)) newNotify [(.set 1 5, .unit), (.sendAll, .sent [5] false)] s := by
  have i1 : formatUint (1 : UInt64).toNat = [49] := by unfold formatUint; rfl
  refine ⟨_, .cons (.set _ 1 5) (.cons (.sendAll _ [([49], 5)] ?_) (.nil _))⟩
  have : ([([49], 5)] : List (Bytes × Nat)) = (newNotify.set (formatUint (1 : UInt64).toNat) 5).entries := by rw [i1]; decide +kernel
  rw [← this]

end C65

section C69
open Zinx.Request

variable {W : Type}

/-- A handler that does its work without calling `Next` or `Abort`. -/
def PlainHandler : Handler W → Prop
  | .ret => True
  | .panic => True
  | .act f k => ∀ w, PlainHandler (k (f w))
  | _ => False

/-- What it does: whether it panics, and the process state. -/
def plainEffect : Handler W → W → Bool × W
  | .panic, w => (true, w)
  | .act f k, w => plainEffect (k (f w)) (f w)
  | _, w => (false, w)

theorem plainHandler_exec (nxt : List (Nat × Handler W) → W → SpecRun W) : ∀ (h : Handler W) (rest : List (Nat × Handler W)) (w : W), PlainHandler h →
    specExec nxt h rest w = ⟨(plainEffect h w).1, rest, (plainEffect h w).2, if (plainEffect h w).1 then [.panic] else []⟩ := by
  intro h
  induction h with
  | ret => intro rest w _; rfl
  | panic => intro rest w _; rfl
  | act f k ih => intro rest w hp; rw [specExec, plainEffect]; exact ih (f w) rest (f w) (hp w)
  | next k ih => intro _ _ hp; exact hp.elim
  | abort k ih => intro _ _ hp; exact hp.elim

theorem plainHandler_loop : ∀ (l : List (Nat × Handler W)) (n : Nat) (w : W), (∀ x ∈ l, PlainHandler x.2) → l.length ≤ n →
    (∀ x ∈ (specLoop n l w).rest, x ∈ l) ∧ (specLoop n l w).rest.length ≤ l.length ∧
    (((specLoop n l w).panicked = false ∧ HEvent.panic ∉ (specLoop n l w).trace ∧ (specLoop n l w).rest = [] ∧ starts (specLoop n l w).trace = l.map (·.1)) ∨
     ((specLoop n l w).panicked = true ∧ ∃ t, (specLoop n l w).trace = t ++ [.panic] ∧ HEvent.panic ∉ t ∧ starts t ++ (specLoop n l w).rest.map (·.1) = l.map (·.1))) ∧
    HEvent.next ∉ (specLoop n l w).trace ∧ HEvent.abort ∉ (specLoop n l w).trace := by
  intro l
  induction l with
  | nil => intro n w _ _; cases n <;> exact ⟨nofun, Nat.le_refl _, .inl ⟨rfl, nofun, rfl, rfl⟩, nofun, nofun⟩
  | cons a l ih =>
    intro n w hp hn
    obtain ⟨i, h⟩ := a
    cases n with
    | zero => cases hn
    | succ n =>
      rw [specLoop, plainHandler_exec _ h l w (hp _ (List.mem_cons_self ..))]
      dsimp only
      cases hb : (plainEffect h w).1 with
      | true =>
        rw [if_pos rfl]
        exact ⟨fun x hx => List.mem_cons_of_mem _ hx, Nat.le_succ _, .inr ⟨rfl, [.start i], rfl, by simp, rfl⟩, by simp, by simp⟩
      | false =>
        rw [if_neg (by simp)]
        obtain ⟨h1, h2, h3, h4, h5⟩ := ih n (plainEffect h w).2 (fun x hx => hp x (List.mem_cons_of_mem _ hx)) (Nat.le_of_succ_le_succ hn)
        dsimp only
        simp only [if_neg (show ¬ (false = true) by decide), List.nil_append]
        refine ⟨fun x hx => List.mem_cons_of_mem _ (h1 x hx), Nat.le_succ_of_le h2, ?_, by simp [h4], by simp [h5]⟩
        rcases h3 with ⟨p1, p2, p3, p4⟩ | ⟨p1, t, p2, p3, p4⟩
        · refine .inl ⟨p1, by simp [p2], p3, ?_⟩
          rw [starts, List.filterMap_cons] 
          dsimp only
          rw [← starts, p4]; rfl
        · refine .inr ⟨p1, .start i :: t, by rw [p2]; rfl, by simp [p3], ?_⟩
          rw [starts, List.filterMap_cons] 
          dsimp only
          rw [← starts, List.cons_append, p4]; rfl

/-- **C69, the exact behaviour with the recovery middleware.** With `RouterRecovery` in front of handlers that call neither `Next` nor `Abort` (at most 125, see C21), the first panic is forgotten: either at
most one handler panics, and then all of them are run, in order, those after the panicking one included, and the run ends regularly; or a second one panics, and the run ends there and in that panic. -/
theorem C69_exact (hs : List (Handler W)) (w : W) (m : SlicesRun W) (hp : ∀ h ∈ hs, PlainHandler h) (hn : hs.length ≤ 125) (hm : Runs (routerRecovery :: hs) w m) :
    (m.trace.count .panic ≤ 1 ∧ starts m.trace = List.range (hs.length + 1) ∧ m.panicked = false) ∨
    (m.trace.count .panic = 2 ∧ m.trace.getLast? = some .panic ∧ m.panicked = true) := by
  have hmem : ∀ (hs : List (Handler W)) (k : Nat) (x), x ∈ numbered k hs → x.2 ∈ hs := by
    intro hs
    induction hs with
    | nil => intro k x h; simp [numbered] at h
    | cons h hs ih =>
      intro k x hx
      simp only [numbered, List.mem_cons] at hx
      rcases hx with rfl | hx
      · simp
      · exact List.mem_cons_of_mem _ (ih _ x hx)
  have hA := plainHandler_loop (numbered 1 hs) hs.length w (fun x hx => hp _ (hmem hs 1 x hx)) (Nat.le_of_eq (numbered_length ..))
  have hfst : (numbered 1 hs).map (·.1) = List.range' 1 hs.length := numbered_fst hs 1
  have hB := plainHandler_loop (specLoop hs.length (numbered 1 hs) w).rest hs.length (specLoop hs.length (numbered 1 hs) w).world
    (fun x hx => hp _ (hmem hs 1 x (hA.1 x hx))) (by have := hA.2.1; rw [numbered_length] at this; exact this)
  have hr : specRun (routerRecovery :: hs) w = { specLoop hs.length (specLoop hs.length (numbered 1 hs) w).rest (specLoop hs.length (numbered 1 hs) w).world with
      trace := .start 0 :: (.next :: ((specLoop hs.length (numbered 1 hs) w).trace ++ [.resume (specLoop hs.length (numbered 1 hs) w).panicked]) ++
        (specLoop hs.length (specLoop hs.length (numbered 1 hs) w).rest (specLoop hs.length (numbered 1 hs) w).world).trace) } := rfl
  obtain ⟨_, _, hA3, hA4, hA5⟩ := hA
  obtain ⟨_, _, hB3, hB4, hB5⟩ := hB
  generalize hLA : specLoop hs.length (numbered 1 hs) w = A at *
  generalize hLB : specLoop hs.length A.rest A.world = B at *
  obtain ⟨m', hm', ht, _, hpan⟩ := C21_partial (routerRecovery :: hs) w (by
    rw [hr]
    simp only [nextCalls, List.count_cons, List.count_append, List.mem_cons, List.mem_append, List.length_cons]
    rw [List.count_eq_zero.2 hA4, List.count_eq_zero.2 hB4, ]
    simp [hA5, hB5]
    omega)
  have := Runs.unique hm hm'
  subst this
  rw [ht, hpan, hr]
  dsimp only
  have hst : ∀ a b, starts (.start 0 :: (.next :: (a ++ [.resume A.panicked]) ++ b)) = 0 :: (starts a ++ starts b) := by
    intro a b; simp [starts]
  have hrg : List.range (hs.length + 1) = 0 :: List.range' 1 hs.length := by
    rw [List.range_eq_range', List.range'_succ]
  rw [hst]
  have hct : ∀ a b, (HEvent.start 0 :: (.next :: (a ++ [.resume A.panicked]) ++ b)).count .panic = a.count .panic + b.count .panic := by
    intro a b; simp
  rw [hct]
  rcases hA3 with ⟨p1, p2, p3, p4⟩ | ⟨p1, t, p2, p3, p4⟩
  · rw [p3] at hB3
    rcases hB3 with ⟨q1, q2, q3, q4⟩ | ⟨q1, t, q2, q3, q4⟩
    · refine .inl ⟨?_, ?_, q1⟩
      · rw [List.count_eq_zero.2 p2, List.count_eq_zero.2 q2]; decide
      · rw [p4, q4, hfst, hrg]; simp
    · rw [p3] at hLB
      rw [← hLB] at q1
      generalize hs.length = n at q1
      cases n <;> cases q1
  · rcases hB3 with ⟨q1, q2, q3, q4⟩ | ⟨q1, t', q2, q3, q4⟩
    · refine .inl ⟨?_, ?_, q1⟩
      · rw [p2, List.count_append, List.count_eq_zero.2 p3, List.count_eq_zero.2 q2]; decide
      · have : starts A.trace = starts t := by rw [p2]; simp [starts]
        rw [this, q4, p4, hfst, hrg]
    · refine .inr ⟨?_, ?_, q1⟩
      · rw [p2, q2, List.count_append, List.count_append, List.count_eq_zero.2 p3, List.count_eq_zero.2 q3]; decide
      · rw [q2, ← List.append_assoc, ← List.cons_append, List.getLast?_append]; rfl

example : ∀ h ∈ [leaf 1, .panic, leaf 2, .panic, leaf 3], PlainHandler h := by
  intro h hh
  simp only [List.mem_cons, List.not_mem_nil, or_false] at hh
  rcases hh with rfl | rfl | rfl | rfl | rfl
  · intro w; trivial
  · trivial
  · intro w; trivial
  · trivial
  · intro w; trivial

end C69

end Zinx.Props
