import Verif.Props.Unbuf

/-! # C141: messages sent with queues of length 0 arrive

An infinite execution with a queue of length 0 is made into one with a queue of length 1 by giving two moments to each of its moments. -/

namespace Zinx.Props
open Zinx Zinx.Pipe

section
variable {S L L' : Type} {st' : S → L' → S → Prop} {st : S → L → S → Prop}

/-- An action or none. -/
def MayStep (st : S → L → S → Prop) (s : S) : Option L → S → Prop
  | none, t => t = s
  | some l, t => st s l t

/-- Each action of `L'` is, or is made of, the actions `f` and `g` of `L`, one after the other. -/
def Halves (st' : S → L' → S → Prop) (st : S → L → S → Prop) (f g : L' → Option L) : Prop := ∀ s l t, st' s l t → ∃ u, MayStep st s (f l) u ∧ MayStep st u (g l) t

variable {f g : L' → Option L} (hs : Halves st' st f g) (e : Exec st')

include hs in
theorem exists_mid (n : Nat) : ∃ u, MayStep st (e.run n) ((e.act n).bind f) u ∧ MayStep st u ((e.act n).bind g) (e.run (n + 1)) := by
  have hn := e.next n
  cases ha : e.act n with
  | none => rw [ha] at hn; exact ⟨_, rfl, hn⟩
  | some l => rw [ha] at hn; exact hs _ _ _ hn

noncomputable def midway (n : Nat) : S := (exists_mid hs e n).choose

theorem midway_first (n : Nat) : MayStep st (e.run n) ((e.act n).bind f) (midway hs e n) := (exists_mid hs e n).choose_spec.1

theorem midway_second (n : Nat) : MayStep st (midway hs e n) ((e.act n).bind g) (e.run (n + 1)) := (exists_mid hs e n).choose_spec.2

/-- The same at half the speed. -/
noncomputable def slower : Exec st where
  run n := if n % 2 = 0 then e.run (n / 2) else midway hs e (n / 2)
  act n := if n % 2 = 0 then (e.act (n / 2)).bind f else (e.act (n / 2)).bind g
  next n := by
    rcases Nat.mod_two_eq_zero_or_one n with h | h
    · have h1 : (n + 1) % 2 = 1 := by omega
      have h2 : (n + 1) / 2 = n / 2 := by omega
      have := midway_first hs e (n / 2)
      simp only [h, h1, h2, if_true, if_neg (Nat.one_ne_zero)]
      revert this
      cases (e.act (n / 2)).bind f <;> exact id
    · have h1 : (n + 1) % 2 = 0 := by omega
      have h2 : (n + 1) / 2 = n / 2 + 1 := by omega
      have := midway_second hs e (n / 2)
      simp only [h, h1, h2, if_true, if_neg (Nat.one_ne_zero)]
      revert this
      cases (e.act (n / 2)).bind g <;> exact id

theorem slower_run (n : Nat) : (slower hs e).run (2 * n) = e.run n := by
  show (if 2 * n % 2 = 0 then e.run (2 * n / 2) else _) = _
  rw [if_pos (by omega), show 2 * n / 2 = n by omega]

theorem slower_odd (n : Nat) : (slower hs e).run (2 * n + 1) = midway hs e n := by
  show (if (2 * n + 1) % 2 = 0 then _ else midway hs e ((2 * n + 1) / 2)) = _
  rw [if_neg (by omega), show (2 * n + 1) / 2 = n by omega]

theorem slower_act (n : Nat) : (slower hs e).act (2 * n) = (e.act n).bind f ∧ (slower hs e).act (2 * n + 1) = (e.act n).bind g := by
  constructor
  · show (if 2 * n % 2 = 0 then (e.act (2 * n / 2)).bind f else _) = _
    rw [if_pos (by omega), show 2 * n / 2 = n by omega]
  · show (if (2 * n + 1) % 2 = 0 then _ else (e.act ((2 * n + 1) / 2)).bind g) = _
    rw [if_neg (by omega), show (2 * n + 1) / 2 = n by omega]

theorem slower_trace (n : Nat) : (slower hs e).trace (2 * n) = (e.trace n).flatMap fun l => (f l).toList ++ (g l).toList := by
  induction n with
  | zero => rfl
  | succ n ih =>
    show ((slower hs e).trace (2 * n) ++ ((slower hs e).act (2 * n)).toList) ++ ((slower hs e).act (2 * n + 1)).toList = (e.trace n ++ (e.act n).toList).flatMap _
    rw [ih, (slower_act hs e n).1, (slower_act hs e n).2, List.flatMap_append, List.append_assoc]
    cases e.act n <;> simp

/-- Weak fairness. -/
theorem slower_weak {A' : L' → Prop} {A : L → Prop} (hen : ∀ n, Enabled st A (e.run n) → Enabled st' A' (e.run n)) (hA : ∀ l, A' l → (∃ x, f l = some x ∧ A x) ∨ ∃ x, g l = some x ∧ A x)
    (h : e.WeakFair A') : (slower hs e).WeakFair A := by
  intro n hn
  obtain ⟨m, l, hm, ha, hl⟩ := h n fun m hm => hen m (by have := hn (2 * m) (by omega); rwa [slower_run] at this)
  rcases hA l hl with ⟨x, hx, hax⟩ | ⟨x, hx, hax⟩
  · exact ⟨2 * m, x, by omega, by rw [(slower_act hs e m).1, ha]; exact hx, hax⟩
  · exact ⟨2 * m + 1, x, by omega, by rw [(slower_act hs e m).2, ha]; exact hx, hax⟩

/-- Strong fairness. -/
theorem slower_strong {A' : L' → Prop} {A : L → Prop} (hen : ∀ n, Enabled st A (e.run n) → Enabled st' A' (e.run n)) (hA : ∀ l, A' l → (∃ x, f l = some x ∧ A x) ∨ ∃ x, g l = some x ∧ A x)
    (hodd : ∀ n l, e.act n = some l → g l ≠ none → Enabled st A (midway hs e n) → Enabled st A (e.run n) ∨ ∃ x, g l = some x ∧ A x) (h : e.StrongFair A') : (slower hs e).StrongFair A := by
  intro n hn
  by_cases hx : ∃ m x, n ≤ m ∧ (slower hs e).act m = some x ∧ A x
  · exact hx
  have hen2 : ∀ m, n ≤ m → ∃ k, m ≤ k ∧ Enabled st A (e.run k) := by
    intro m hm
    obtain ⟨k, hk, he⟩ := hn (2 * m) (by omega)
    obtain ⟨j, rfl | rfl⟩ : ∃ j, k = 2 * j ∨ k = 2 * j + 1 := ⟨k / 2, by omega⟩
    · rw [slower_run] at he
      exact ⟨j, by omega, he⟩
    · rw [slower_odd] at he
      have h2 := midway_second hs e j
      cases ha : e.act j with
      | none =>
        rw [ha] at h2
        have : e.run (j + 1) = midway hs e j := h2
        exact ⟨j + 1, by omega, by rw [this]; exact he⟩
      | some l =>
        by_cases hg : g l = none
        · rw [ha] at h2
          have : e.run (j + 1) = midway hs e j := by
            simp only [Option.bind_some, hg] at h2
            exact h2
          exact ⟨j + 1, by omega, by rw [this]; exact he⟩
        · rcases hodd j l ha hg he with h3 | ⟨x, h3, h4⟩
          · exact ⟨j, by omega, h3⟩
          · exact absurd ⟨2 * j + 1, x, by omega, by rw [(slower_act hs e j).2, ha]; exact h3, h4⟩ hx
  obtain ⟨m, l, hm, ha, hl⟩ := h n fun m hm => let ⟨k, hk, he⟩ := hen2 m hm; ⟨k, hk, hen k he⟩
  rcases hA l hl with ⟨x, hx, hax⟩ | ⟨x, hx, hax⟩
  · exact ⟨2 * m, x, by omega, by rw [(slower_act hs e m).1, ha]; exact hx, hax⟩
  · exact ⟨2 * m + 1, x, by omega, by rw [(slower_act hs e m).2, ha]; exact hx, hax⟩

end

/-! ## The parts of a connection from end to end -/

section
variable {S L : Type} {st0 st1 : S → L → S → Prop} {over : S → L → L → S → Prop} {wr : L → Bytes} {k : Decoder.Kind} {b : Bool} {wid : Nat → Nat} {cap c : Nat}

/-- The first half of an action. -/
def firstHalf : Pipe.Label (Unbuf.Label L) → Option (Pipe.Label L)
  | .send (.one l) => some (.send l)
  | .send (.both a _) => some (.send a)
  | .read x rs => some (.read x rs)
  | .work a => some (.work a)

/-- The second half, if there is one. -/
def secondHalf : Pipe.Label (Unbuf.Label L) → Option (Pipe.Label L)
  | .send (.both _ b) => some (.send b)
  | _ => none

/-- An action of the given kind, or one of which a half is. -/
def partly (A : L → Prop) : Unbuf.Label L → Prop
  | .one l => A l
  | .both a b => A a ∨ A b

theorem halves_inTurn (ls : List (Pipe.Label (Unbuf.Label L))) : (ls.flatMap fun l => (firstHalf l).toList ++ (secondHalf l).toList) = inTurnPipe ls := by
  unfold inTurnPipe
  congr 1
  funext l
  rcases l with (_ | _) | _ | _ <;> rfl

theorem pipe_halves (h1 : ∀ s l t, st0 s l t → st1 s l t) (h2 : ∀ s a b t, over s a b t → ∃ u, st1 s a u ∧ st1 u b t) :
    Halves (Pipe.Step (Unbuf.Step st0 over) (Unbuf.written wr) k b wid cap c) (Pipe.Step st1 wr k b wid cap c) firstHalf secondHalf := by
  intro s l t h
  cases h with
  | send l t h =>
    cases h with
    | one l t h => exact ⟨_, .send _ l t (h1 _ _ _ h), rfl⟩
    | both a d t h =>
      obtain ⟨u, g1, g2⟩ := h2 _ _ _ _ h
      refine ⟨_, .send _ a u g1, ?_⟩
      have := Pipe.Step.send (st := st1) (wr := wr) (k := k) (b := b) (wid := wid) (cap := cap) (c := c) { s with snd := u, flight := s.flight ++ wr a } _ t g2
      dsimp only at this
      rw [List.append_assoc] at this
      exact this
  | read x y d ms sta hx hf hd hr t hw => exact ⟨_, .read _ x y d ms sta hx hf hd hr t hw, rfl⟩
  | work a ha t h => exact ⟨_, .work _ a ha t h, rfl⟩

variable (h1 : ∀ s l t, st0 s l t → st1 s l t) (h2 : ∀ s a b t, over s a b t → ∃ u, st1 s a u ∧ st1 u b t) (e : Exec (Pipe.Step (Unbuf.Step st0 over) (Unbuf.written wr) k b wid cap c))

theorem read_weak (h : e.WeakFair isRead) : (slower (pipe_halves h1 h2) e).WeakFair isRead := by
  refine slower_weak (A' := isRead) _ _ ?_ ?_ h
  · rintro n ⟨l, t, hA, hs⟩
    cases hs with
    | send => cases hA
    | work => cases hA
    | read x y d ms sta hx hf hd hr t hw => exact ⟨.read x _, _, trivial, .read _ x y d ms sta hx hf hd hr t hw⟩
  · rintro (_ | _ | _) hA
    · cases hA
    · exact .inl ⟨_, rfl, trivial⟩
    · cases hA

theorem worker_enabled {A : Worker.Act → Prop} {n : Nat} (h : Enabled (Pipe.Step st1 wr k b wid cap c) (byWorker A) (e.run n)) :
    Enabled (Pipe.Step (Unbuf.Step st0 over) (Unbuf.written wr) k b wid cap c) (byWorker A) (e.run n) := by
  obtain ⟨l, t, hA, hs⟩ := h
  cases hs with
  | send => cases hA
  | read => cases hA
  | work a ha t h => exact ⟨_, _, hA, .work _ a ha t h⟩

theorem worker_weak {A : Worker.Act → Prop} (h : e.WeakFair (byWorker A)) : (slower (pipe_halves h1 h2) e).WeakFair (byWorker A) := by
  refine slower_weak (A' := byWorker A) _ _ (fun n => worker_enabled e) ?_ h
  rintro (_ | _ | _) hA
  · cases hA
  · cases hA
  · exact .inl ⟨_, rfl, hA⟩

theorem worker_strong {A : Worker.Act → Prop} (h : e.StrongFair (byWorker A)) : (slower (pipe_halves h1 h2) e).StrongFair (byWorker A) := by
  refine slower_strong (A' := byWorker A) _ _ (fun n => worker_enabled e) ?_ ?_ h
  · rintro (_ | _ | _) hA
    · cases hA
    · cases hA
    · exact .inl ⟨_, rfl, hA⟩
  · intro n l ha hg he
    left
    have hm := midway_first (pipe_halves h1 h2) e n
    rw [ha] at hm
    generalize midway (pipe_halves h1 h2) e n = u at hm he
    obtain ⟨l', t, hA, hs⟩ := he
    cases hs with
    | send => cases hA
    | read => cases hA
    | work a haa t h =>
      have hwk : u.wk = (e.run n).wk := by
        rcases l with (_ | _) | _ | _
        · exact absurd rfl hg
        · cases hm; rfl
        · exact absurd rfl hg
        · exact absurd rfl hg
      rw [hwk] at h
      exact ⟨.work a, _, hA, .work _ a haa t h⟩

theorem sender_weak {A : L → Prop} (hen : ∀ n, Enabled st1 A (e.run n).snd → Enabled (Unbuf.Step st0 over) (partly A) (e.run n).snd) (h : e.WeakFair (bySender (partly A))) :
    (slower (pipe_halves h1 h2) e).WeakFair (bySender A) := by
  refine slower_weak (A' := bySender (partly A)) _ _ ?_ ?_ h
  · rintro n ⟨l, t, hA, hs⟩
    cases hs with
    | work => cases hA
    | read => cases hA
    | send l t hs =>
      obtain ⟨l', t', hA', hs'⟩ := hen n ⟨l, t, hA, hs⟩
      exact ⟨.send l', _, hA', .send _ l' t' hs'⟩
  · rintro (l | _ | _) hA
    · rcases l with l | ⟨a, b⟩
      · exact .inl ⟨_, rfl, hA⟩
      · rcases hA with hA | hA
        · exact .inl ⟨_, rfl, hA⟩
        · exact .inr ⟨_, rfl, hA⟩
    · cases hA
    · cases hA

theorem sender_odd {A : L → Prop} (hodd : ∀ s a b t u, over s a b t → st1 s a u → Enabled st1 A u → Enabled st1 A s ∨ A b) (n : Nat) (l : Pipe.Label (Unbuf.Label L)) (ha : e.act n = some l)
    (hg : secondHalf l ≠ none) (he : Enabled (Pipe.Step st1 wr k b wid cap c) (bySender A) (midway (pipe_halves h1 h2) e n)) :
    Enabled (Pipe.Step st1 wr k b wid cap c) (bySender A) (e.run n) ∨ ∃ x, secondHalf l = some x ∧ bySender A x := by
  have hm := midway_first (pipe_halves h1 h2) e n
  have hn := e.next n
  rw [ha] at hm hn
  generalize midway (pipe_halves h1 h2) e n = u at hm he
  obtain ⟨l', t, hA, hs⟩ := he
  cases hs with
  | work => cases hA
  | read => cases hA
  | send l' t hs =>
    rcases l with l | _ | _
    · rcases l with l | ⟨a, b⟩
      · exact absurd rfl hg
      · dsimp only at hn
        generalize e.run (n + 1) = w at hn
        cases hn with
        | send _ t hn =>
          cases hn with
          | both _ _ t hn =>
            cases hm with
            | send _ v hm =>
              rcases hodd _ _ _ _ _ hn hm ⟨l', _, hA, hs⟩ with ⟨x, y, h3, h4⟩ | h3
              · exact .inl ⟨.send x, _, h3, .send _ x y h4⟩
              · exact .inr ⟨_, rfl, h3⟩
    · exact absurd rfl hg
    · exact absurd rfl hg

theorem sender_strong {A : L → Prop} (hen : ∀ n, Enabled st1 A (e.run n).snd → Enabled (Unbuf.Step st0 over) (partly A) (e.run n).snd)
    (hodd : ∀ s a b t u, over s a b t → st1 s a u → Enabled st1 A u → Enabled st1 A s ∨ A b) (h : e.StrongFair (bySender (partly A))) : (slower (pipe_halves h1 h2) e).StrongFair (bySender A) := by
  refine slower_strong (A' := bySender (partly A)) _ _ ?_ ?_ (sender_odd h1 h2 e hodd) h
  · rintro n ⟨l, t, hA, hs⟩
    cases hs with
    | work => cases hA
    | read => cases hA
    | send l t hs =>
      obtain ⟨l', t', hA', hs'⟩ := hen n ⟨l, t, hA, hs⟩
      exact ⟨.send l', _, hA', .send _ l' t' hs'⟩
  · rintro (l | _ | _) hA
    · rcases l with l | ⟨a, b⟩
      · exact .inl ⟨_, rfl, hA⟩
      · rcases hA with hA | hA
        · exact .inl ⟨_, rfl, hA⟩
        · exact .inr ⟨_, rfl, hA⟩
    · cases hA
    · cases hA

/-- What is possible only between the halves, and then is the second half, is done whenever it is possible. -/
theorem sender_never {A : L → Prop} (hno : ∀ n, ¬ Enabled st1 A (e.run n).snd) (hodd : ∀ s a b t u, over s a b t → st1 s a u → Enabled st1 A u → A b) :
    (slower (pipe_halves h1 h2) e).StrongFair (bySender A) := by
  refine slower_strong (A' := fun _ => False) _ _ ?_ (fun _ h => h.elim) (sender_odd h1 h2 e fun s a b t u h h' h'' => .inr (hodd s a b t u h h' h'')) ?_
  · rintro n ⟨l, t, hA, hs⟩
    cases hs with
    | work => cases hA
    | read => cases hA
    | send l t hs => exact absurd ⟨l, t, hA, hs⟩ (hno n)
  · intro n hn
    obtain ⟨_, _, _, _, h, _⟩ := hn n (Nat.le_refl _)
    exact h.elim

theorem slower_all {P : S → Prop} (hP : ∀ n, P (e.run n).snd) (hmid : ∀ s a b t u, over s a b t → st1 s a u → P s → P u) (n : Nat) : P ((slower (pipe_halves h1 h2) e).run n).snd := by
  obtain ⟨j, rfl | rfl⟩ : ∃ j, n = 2 * j ∨ n = 2 * j + 1 := ⟨n / 2, by omega⟩
  · rw [slower_run]; exact hP j
  · rw [slower_odd]
    have hm1 := midway_first (pipe_halves h1 h2) e j
    have hm2 := midway_second (pipe_halves h1 h2) e j
    have hn := e.next j
    cases ha : e.act j with
    | none => rw [ha] at hm1; rw [show midway (pipe_halves h1 h2) e j = e.run j from hm1]; exact hP j
    | some l =>
      rw [ha] at hm1 hm2 hn
      rcases l with (l | ⟨a, d⟩) | _ | _
      · rw [← show e.run (j + 1) = midway (pipe_halves h1 h2) e j from hm2]; exact hP _
      · generalize midway (pipe_halves h1 h2) e j = u at hm1
        have := hP j
        dsimp only at hn
        generalize e.run (j + 1) = w at hn
        cases hn with
        | send _ t hn =>
          cases hn with
          | both _ _ t hn =>
            cases hm1 with
            | send _ v hm => exact hmid _ _ _ _ _ hn hm this
      · rw [← show e.run (j + 1) = midway (pipe_halves h1 h2) e j from hm2]; exact hP _
      · rw [← show e.run (j + 1) = midway (pipe_halves h1 h2) e j from hm2]; exact hP _

theorem slower_inTurn (n : Nat) : (slower (pipe_halves h1 h2) e).trace (2 * n) = inTurnPipe (e.trace n) := by rw [slower_trace, halves_inTurn]

/-- A whole number of moments later nothing is missing. -/
theorem slower_even {n : Nat} : ∃ m, n ≤ 2 * m ∧ 2 * m ≤ n + 1 ∧ (∃ x, (slower (pipe_halves h1 h2) e).trace (2 * m) = (slower (pipe_halves h1 h2) e).trace n ++ x ∧ workTr c x = []) ∧
    ((slower (pipe_halves h1 h2) e).run n).msgs = (e.run m).msgs := by
  obtain ⟨j, rfl | rfl⟩ : ∃ j, n = 2 * j ∨ n = 2 * j + 1 := ⟨n / 2, by omega⟩
  · exact ⟨j, by omega, by omega, ⟨[], by simp, rfl⟩, by rw [slower_run]⟩
  · refine ⟨j + 1, by omega, by omega, ?_⟩
    rw [slower_odd]
    have hm2 := midway_second (pipe_halves h1 h2) e j
    have ht : (slower (pipe_halves h1 h2) e).trace (2 * (j + 1)) = (slower (pipe_halves h1 h2) e).trace (2 * j + 1) ++ ((e.act j).bind secondHalf).toList := by
      rw [← (slower_act (pipe_halves h1 h2) e j).2]
      rfl
    cases ha : e.act j with
    | none =>
      rw [ha] at hm2 ht
      exact ⟨⟨_, ht, rfl⟩, by rw [show e.run (j + 1) = _ from hm2]⟩
    | some l =>
      rw [ha] at hm2 ht
      refine ⟨⟨_, ht, ?_⟩, ?_⟩ <;> rcases l with (l | ⟨a, d⟩) | _ | _
      · rfl
      · rfl
      · rfl
      · rfl
      · rw [show e.run (j + 1) = _ from hm2]
      · have hm3 : Pipe.Step st1 wr k b wid cap c (midway (pipe_halves h1 h2) e j) (.send d) (e.run (j + 1)) := hm2
        generalize e.run (j + 1) = w at hm3
        cases hm3
        rfl
      · rw [show e.run (j + 1) = _ from hm2]
      · rw [show e.run (j + 1) = _ from hm2]

end

/-! ## C141 -/

section
variable {bc : Nat} {k : Decoder.Kind} {b : Bool} {wid : Nat → Nat} {cap c : Nat}

theorem unbuf_empty (e : Exec (Pipe.Step (Unbuf.TcpStep bc) (Unbuf.written tcpWritten) k b wid cap c)) (h0 : e.run 0 = Pipe.init {} k) (n : Nat) : ∀ q, (e.run n).snd.chan = some q → q.items = [] := by
  have hi := Pipe.inv (h0 ▸ e.steps n)
  exact (C141_taken bc _ _ hi.snd).1

/-- **C141**, every message arrives, TCP: as in `C84_arrives`. Nothing is asked of the meeting of senders and writer: a send that has returned nil has met it. -/
theorem C141_arrives (e : Exec (Pipe.Step (Unbuf.TcpStep bc) (Unbuf.written tcpWritten) k b wid cap c)) (h0 : e.run 0 = Pipe.init {} k) (hk : k ≠ .htlv)
    (hq : ∀ n, (e.run n).snd.closed = false ∧ (e.run n).snd.broken = false) (hg : ∀ n, GoodCalls k (inTurnPipe (e.trace n))) (ho : ∀ n, OnlyBuffered (inTurnPipe (e.trace n)))
    (hf : e.WeakFair (bySender (partly Send.Inner))) (ht : e.StrongFair (bySender (partly fun l => l = .tick))) (hrd : e.WeakFair isRead) (hwk : e.WeakFair (byWorker (workerActs (wid c))))
    (hdel : e.StrongFair (byWorker (readerActs c))) (n : Nat) :
    ∃ msgs : List (UInt32 × Bytes), Send.enqOf (sendTr (inTurnPipe (e.trace n))) = msgs.map (packOf k) ∧
      ∃ m, n ≤ m ∧ oneByOne msgs <+: (Worker.handlingOf c (workTr c (inTurnPipe (e.trace m)))).map (seen (e.run m).msgs) := by
  let E := slower (pipe_halves tcp_more tcp_over) e
  have hmem : ∀ n, ∃ x, inTurnPipe (e.trace n) = E.trace n ++ x := fun n => by
    obtain ⟨x, hx⟩ := E.trace_prefix (show n ≤ 2 * n by omega)
    exact ⟨x, by rw [← slower_inTurn tcp_more tcp_over e, hx]⟩
  have hany : ∀ {A : Send.Label → Prop}, (∀ i m, ¬ A (.enq i m)) → ∀ n, Enabled (Send.Step 1 bc) A (e.run n).snd → Enabled (Unbuf.TcpStep bc) (partly A) (e.run n).snd := by
    rintro A hA n ⟨l, t, hl, hs⟩
    exact ⟨.one l, t, hl, .one _ l t (tcp_any _ l t (fun i m h => hA i m (h ▸ hl)) hs)⟩
  have hrun0 : E.run 0 = Pipe.init {} k := by rw [← h0]; exact slower_run (pipe_halves tcp_more tcp_over) e 0
  have hqE := slower_all tcp_more tcp_over e (P := fun s => s.closed = false ∧ s.broken = false) hq (by intro s a b t u h hs hp; cases h; cases hs; exact hp)
  have hgE : ∀ n, GoodCalls k (E.trace n) := fun n i m h => by
    obtain ⟨x, hx⟩ := hmem n
    exact hg n i m (by rw [hx]; exact List.mem_append_left _ h)
  have hoE : ∀ n, OnlyBuffered (E.trace n) := fun n i m h => by
    obtain ⟨x, hx⟩ := hmem n
    exact ho n i m (by rw [hx]; exact List.mem_append_left _ h)
  have hfE : E.WeakFair (bySender Send.Inner) := sender_weak tcp_more tcp_over e (hany (by rintro i m (h | ⟨x, h⟩) <;> cases h)) hf
  have hrE : E.StrongFair (bySender fun l => l = .recv) := sender_never tcp_more tcp_over e (by
    rintro n ⟨l, t, rfl, hs⟩
    cases hs with
    | recv m ms q _ hc => cases unbuf_empty e h0 n _ hc) (by rintro s a b t u h - -; cases h; rfl)
  have htE : E.StrongFair (bySender fun l => l = .tick) := sender_strong tcp_more tcp_over e (hany (by rintro i m h; cases h)) (by
    rintro s a b t u h - -
    cases h with
    | over i m _ _ h3 => exact .inl ⟨_, _, rfl, .tick _ h3⟩) ht
  obtain ⟨msgs, g1, m, hm, g2⟩ := C84_arrives E hrun0 hk hqE hgE hoE hfE hrE htE (read_weak tcp_more tcp_over e hrd) (worker_weak tcp_more tcp_over e hwk) (worker_strong tcp_more tcp_over e hdel) (2 * n)
  refine ⟨msgs, by rw [← g1, slower_inTurn tcp_more tcp_over e], ?_⟩
  obtain ⟨j, hj1, hj2, ⟨x, hx, hx2⟩, hj3⟩ := slower_even tcp_more tcp_over e (n := m)
  refine ⟨j, by omega, ?_⟩
  rw [← slower_inTurn tcp_more tcp_over e, hx, ← hj3]
  have : workTr c (E.trace m ++ x) = workTr c (E.trace m) := by
    rw [workTr, List.filterMap_append]
    show _ ++ workTr c x = _
    rw [hx2, List.append_nil]
    rfl
  exact this ▸ g2

/-- **C141**, every message arrives, WebSocket: as in `C91_ws_arrives`. -/
theorem C141_ws_arrives (e : Exec (Pipe.Step Unbuf.WsStep (Unbuf.written wsWritten) k b wid cap c)) (h0 : e.run 0 = Pipe.init {} k) (hk : k ≠ .htlv)
    (hq : ∀ n, (e.run n).snd.cancelled = false ∧ (e.run n).snd.broken = false) (hg : ∀ n, GoodWs k (inTurnPipe (e.trace n))) (hs : ∀ i, e.WeakFair (bySender (partly (WsSend.Label.inside i))))
    (hw : e.WeakFair (bySender (partly WsSend.Label.winside))) (ha : e.StrongFair (bySender (partly (· = .wlock)))) (hrd : e.WeakFair isRead) (hwk : e.WeakFair (byWorker (workerActs (wid c))))
    (hdel : e.StrongFair (byWorker (readerActs c))) (n : Nat) :
    (∃ m, n ≤ m ∧ WsSend.enqOf (sendTr (inTurnPipe (e.trace n))) <+: WsSend.wends (sendTr (inTurnPipe (e.trace m)))) ∧
    ∃ msgs : List (UInt32 × Bytes), WsSend.sent (sendTr (inTurnPipe (e.trace n))) = msgs.map (packOf k) ∧
      ∃ m, n ≤ m ∧ oneByOne msgs <+: (Worker.handlingOf c (workTr c (inTurnPipe (e.trace m)))).map (seen (e.run m).msgs) := by
  let E := slower (pipe_halves ws_more ws_over) e
  have hmem : ∀ n, ∃ x, inTurnPipe (e.trace n) = E.trace n ++ x := fun n => by
    obtain ⟨x, hx⟩ := E.trace_prefix (show n ≤ 2 * n by omega)
    exact ⟨x, by rw [← slower_inTurn ws_more ws_over e, hx]⟩
  have hempty : ∀ n q, (e.run n).snd.chan = some q → q.items = [] := by
    intro n
    refine (Pipe.inv (h0 ▸ e.steps n)).snd.invariant (P := fun s => ∀ q, s.chan = some q → q.items = []) ?_ (by intro q h; simp at h)
    intro s l t hp hs
    cases hs with
    | one l t hs => cases hs <;> intro c h <;> grind [WsSend.State.withChan]
    | both a b t hs => cases hs; exact hp
  have hany : ∀ {A : WsSend.Label → Prop}, (∀ i m, ¬ A (.enq i m)) → ∀ n, Enabled (WsSend.Step 1) A (e.run n).snd → Enabled Unbuf.WsStep (partly A) (e.run n).snd := by
    rintro A hA n ⟨l, t, hl, hs⟩
    exact ⟨.one l, t, hl, .one _ l t (ws_any _ l t (fun i m h => hA i m (h ▸ hl)) hs)⟩
  have hrun0 : E.run 0 = Pipe.init {} k := by rw [← h0]; exact slower_run (pipe_halves ws_more ws_over) e 0
  have hqE := slower_all ws_more ws_over e (P := fun s => s.cancelled = false ∧ s.broken = false) hq (by intro s a b t u h hs hp; cases h; cases hs; exact hp)
  have hgE : ∀ n, GoodWs k (E.trace n) := fun n i m b h => by
    obtain ⟨x, hx⟩ := hmem n
    exact hg n i m b (by rw [hx]; exact List.mem_append_left _ h)
  have hsE : ∀ i, E.WeakFair (bySender (WsSend.Label.inside i)) := fun i => sender_weak ws_more ws_over e (by
    rintro n ⟨l, t, hl, h⟩
    by_cases hq : ∃ j m, l = .enq j m
    · obtain ⟨j, m, rfl⟩ := hq
      cases h with
      | enq _ _ q h1 _ _ _ => exact ⟨.one (.retErr j), _, hl, .one _ _ _ (.timeout _ j m h1)⟩
    · exact ⟨.one l, t, hl, .one _ l t (ws_any _ l t (fun j m h => hq ⟨j, m, h⟩) h)⟩) (hs i)
  have hwE : E.WeakFair (bySender WsSend.Label.winside) := sender_weak ws_more ws_over e (hany (by rintro i m h; cases h)) hw
  have haE : E.StrongFair (bySender (· = .wlock)) := sender_strong ws_more ws_over e (hany (by rintro i m h; cases h)) (by
    rintro s a b t u h hs ⟨l, v, rfl, he⟩
    cases h with
    | over i m _ _ h3 =>
      exfalso
      cases hs
      cases he <;> simp_all) ha
  have hrE : E.StrongFair (bySender (· = .recv)) := sender_never ws_more ws_over e (by
    rintro n ⟨l, t, rfl, hs⟩
    cases hs with
    | recv m ms q _ hc => cases hempty n _ hc) (by rintro s a b t u h - -; cases h; rfl)
  obtain ⟨⟨m1, hm1, g0⟩, msgs, g1, m, hm, g2⟩ := C91_ws_arrives E hrun0 hk hqE hgE hsE hwE haE (fun n h => hrE n fun m hm => ⟨m, Nat.le_refl _, h m hm⟩) (read_weak ws_more ws_over e hrd)
    (worker_weak ws_more ws_over e hwk) (worker_strong ws_more ws_over e hdel) (2 * n)
  refine ⟨?_, msgs, by rw [← g1, slower_inTurn ws_more ws_over e], ?_⟩
  · obtain ⟨j, hj1, hj2, ⟨x, hx, _⟩, _⟩ := slower_even ws_more ws_over e (n := m1)
    refine ⟨j, by omega, ?_⟩
    rw [← slower_inTurn ws_more ws_over e, ← slower_inTurn ws_more ws_over e, hx, sendTr, sendTr, List.filterMap_append, WsSend.wends_append]
    exact g0.trans (List.prefix_append _ _)
  · obtain ⟨j, hj1, hj2, ⟨x, hx, hx2⟩, hj3⟩ := slower_even ws_more ws_over e (n := m)
    refine ⟨j, by omega, ?_⟩
    rw [← slower_inTurn ws_more ws_over e, hx, ← hj3]
    have : workTr c (E.trace m ++ x) = workTr c (E.trace m) := by
      rw [workTr, List.filterMap_append]
      show _ ++ workTr c x = _
      rw [hx2, List.append_nil]
      rfl
    exact this ▸ g2

/-- **C141**, every message arrives, KCP, in part: as in `C92_kcp_arrives_partial`. -/
theorem C141_kcp_arrives_partial (e : Exec (Pipe.Step Unbuf.KcpStep (Unbuf.written kcpWritten) k b wid cap c)) (h0 : e.run 0 = Pipe.init {} k) (hk : k ≠ .htlv) (hg : ∀ n, GoodKcp k (inTurnPipe (e.trace n)))
    (hrd : e.WeakFair isRead) (hwk : e.WeakFair (byWorker (workerActs (wid c)))) (hdel : e.StrongFair (byWorker (readerActs c))) :
    (∀ n, ∃ msgs : List (UInt32 × Bytes), KcpSend.wire (sendTr (inTurnPipe (e.trace n))) = msgs.map (packOf k) ∧
      ∃ m, n ≤ m ∧ oneByOne msgs <+: (Worker.handlingOf c (workTr c (inTurnPipe (e.trace m)))).map (seen (e.run m).msgs)) ∧
    ((∀ n, (e.run n).snd.cancelled = false ∧ (e.run n).snd.broken = false) → ∀ i n₀, (∀ j m q, .send (.call j m q) ∈ inTurnPipe (e.trace n₀) → q = .buff ∨ q = .queue → j = i) →
      KcpSend.queued (sendTr (inTurnPipe (e.trace n₀))) ≠ [] → e.WeakFair (bySender (partly (KcpSend.Label.writer 0))) →
      ∀ n, ∃ m, n ≤ m ∧ KcpSend.queued (sendTr (inTurnPipe (e.trace n))) <+: KcpSend.written (sendTr (inTurnPipe (e.trace m)))) := by
  let E := slower (pipe_halves kcp_more kcp_over) e
  have hrun0 : E.run 0 = Pipe.init {} k := by rw [← h0]; exact slower_run (pipe_halves kcp_more kcp_over) e 0
  have hgE : ∀ n, GoodKcp k (E.trace n) := fun n i m b h => by
    obtain ⟨x, hx⟩ := E.trace_prefix (show n ≤ 2 * n by omega)
    exact hg n i m b (by rw [← slower_inTurn kcp_more kcp_over e]; exact (hx ▸ List.mem_append_left _ h : _ ∈ E.trace (2 * n)))
  obtain ⟨hA, hB⟩ := C92_kcp_arrives_partial E hrun0 hk hgE (read_weak kcp_more kcp_over e hrd) (worker_weak kcp_more kcp_over e hwk) (worker_strong kcp_more kcp_over e hdel)
  constructor
  · intro n
    obtain ⟨msgs, g1, m, hm, g2⟩ := hA (2 * n)
    refine ⟨msgs, by rw [← g1, slower_inTurn kcp_more kcp_over e], ?_⟩
    obtain ⟨j, hj1, hj2, ⟨x, hx, hx2⟩, hj3⟩ := slower_even kcp_more kcp_over e (n := m)
    refine ⟨j, by omega, ?_⟩
    rw [← slower_inTurn kcp_more kcp_over e, hx, ← hj3]
    have : workTr c (E.trace m ++ x) = workTr c (E.trace m) := by
      rw [workTr, List.filterMap_append]
      show _ ++ workTr c x = _
      rw [hx2, List.append_nil]
      rfl
    exact this ▸ g2
  · intro hq i n₀ hone hne hw n
    have hqE := slower_all kcp_more kcp_over e (P := fun s => s.cancelled = false ∧ s.broken = false) hq (by intro s a b t u h hs hp; cases h; cases hs; exact hp)
    have hwE : E.WeakFair (bySender (KcpSend.Label.writer 0)) := sender_weak kcp_more kcp_over e (by
      rintro n ⟨l, t, hl, hs⟩
      exact ⟨.one l, t, hl, .one _ l t (kcp_any _ l t (by rintro i m c rfl; cases hl) hs)⟩) hw
    obtain ⟨m1, hm1, g0⟩ := hB hqE i (2 * n₀) (by rw [slower_inTurn kcp_more kcp_over e]; exact hone) (by rw [slower_inTurn kcp_more kcp_over e]; exact hne) hwE (2 * n)
    obtain ⟨j, hj1, hj2, ⟨x, hx, _⟩, _⟩ := slower_even kcp_more kcp_over e (n := m1)
    refine ⟨j, by omega, ?_⟩
    rw [← slower_inTurn kcp_more kcp_over e, ← slower_inTurn kcp_more kcp_over e, hx, sendTr, sendTr, List.filterMap_append, KcpSend.written_append]
    exact g0.trans (List.prefix_append _ _)

end

/-! ## An example -/

def unbufRun : List (Pipe.Label (Unbuf.Label Send.Label)) := [.send (.one (.call 0 pipeBytes)), .send (.one (.inside 0)), .send (.one (.inside 0)), .send (.one (.inside 0)), .send (.one (.inside 0)),
  .send (.both (.enq 0 pipeBytes) .recv), .send (.one .winside), .send (.one .winside), .send (.one .tick), .send (.one .winside), .send (.one (.wwrite pipeBytes)), .read [0, 0, 0, 5, 0] [], .read [0, 0, 1, 7] [pipeReq],
  .work (.submit 1 pipeReq), .work (.start 1 pipeReq), .work (.finish 1 pipeReq .returned)]

def unbufCyc : List (Pipe.Label (Unbuf.Label Send.Label)) := [.send (.one .tick), .send (.one .winside), .send (.one .winside)]

theorem unbuf_example : ∃ s, StepsAll (Pipe.Step (Unbuf.TcpStep 16) (Unbuf.written tcpWritten) .tlv false (fun c => c % 2) 1 3) (fun s => s.snd.closed = false ∧ s.snd.broken = false) (Pipe.init {} .tlv) unbufRun s ∧
    StepsAll (Pipe.Step (Unbuf.TcpStep 16) (Unbuf.written tcpWritten) .tlv false (fun c => c % 2) 1 3) PipeRest s unbufCyc s := by
  have r1 : Decoder.receive .tlv (pipeDec []) [[0, 0, 0, 5, 0]] = ([], .running (pipeDec [0, 0, 0, 5, 0])) := by decide +kernel
  have r2 : Decoder.receive .tlv (pipeDec [0, 0, 0, 5, 0]) [[0, 0, 1, 7]] = ([({ Pack.newMsgPackage 5 [7] with rawData := pipeBytes }, some (.tlv 5 1 [7]))], .running (pipeDec [])) := by decide +kernel
  refine ⟨_, .cons ⟨rfl, rfl⟩ (.send _ _ _ (.one _ _ _ (.call _ 0 pipeBytes rfl))) (.cons ⟨rfl, rfl⟩ (.send _ _ _ (.one _ _ _ (.testNil _ 0 pipeBytes rfl rfl)))
    (.cons ⟨rfl, rfl⟩ (.send _ _ _ (.one _ _ _ (.casWin _ 0 pipeBytes rfl rfl))) (.cons ⟨rfl, rfl⟩ (.send _ _ _ (.one _ _ _ (.make _ 0 pipeBytes rfl)))
    (.cons ⟨rfl, rfl⟩ (.send _ _ _ (.one _ _ _ (.checkOpen _ 0 pipeBytes rfl rfl))) (.cons ⟨rfl, rfl⟩ (.send _ _ _ (.both _ _ _ _ (.over _ 0 pipeBytes rfl rfl rfl)))
    (.cons ⟨rfl, rfl⟩ (.send _ _ _ (.one _ _ _ (.gotOpen _ pipeBytes rfl rfl))) (.cons ⟨rfl, rfl⟩ (.send _ _ _ (.one _ _ _ (.putRest _ pipeBytes rfl rfl (by decide))))
    (.cons ⟨rfl, rfl⟩ (.send _ _ _ (.one _ _ _ (.tick _ rfl))) (.cons ⟨rfl, rfl⟩ (.send _ _ _ (.one _ _ _ (.flushOpen _ rfl rfl))) (.cons ⟨rfl, rfl⟩ (.send _ _ _ (.one _ _ _ (.flushWrite _ rfl rfl (by decide) rfl)))
    (.cons ⟨rfl, rfl⟩ (.read _ [0, 0, 0, 5, 0] [0, 0, 1, 7] (pipeDec []) [] _ (by decide) rfl rfl r1 _ (.arrive _ 3 _ rfl nofun))
    (.cons ⟨rfl, rfl⟩ (.read _ [0, 0, 1, 7] [] (pipeDec [0, 0, 0, 5, 0]) _ _ (by decide) rfl rfl r2 _ (.arrive _ 3 _ rfl (by decide)))
    (.cons ⟨rfl, rfl⟩ (.work _ _ (by intro _ h; cases h) _ (.deliver _ 3 _ [] rfl (by decide))) (.cons ⟨rfl, rfl⟩ (.work _ _ (by intro _ h; cases h) _ (.take _ 1 _ [] rfl rfl)) (.cons ⟨rfl, rfl⟩ (.work _ _ (by intro _ h; cases h) _ (.finish _ 1 _ _ rfl))
    (.nil ⟨rfl, rfl⟩)))))))))))))))), ?_⟩
  have hrest : ∀ s : State Send.State, (s.snd.closed = false ∧ s.snd.broken = false) → s.flight = [] → s.snd.chan = some ⟨[], false⟩ → (s.wk.queue 1 = [] ∧ s.wk.worker 1 = .idle) → (∀ c, s.wk.todo c = []) →
      s.snd.writer = .select → s.snd.err = false → s.snd.buf = [] → StepsAll (Pipe.Step (Unbuf.TcpStep 16) (Unbuf.written tcpWritten) .tlv false (fun c => c % 2) 1 3) PipeRest s unbufCyc s := by
    intro ⟨⟨closed, broken, chan, flag, writer, buf, err, b, d⟩, flight, rcv, msgs, wk⟩ h1 h2 h3 h4 h5 h6 h7 h8
    dsimp only at h1 h2 h3 h4 h5 h6 h7 h8
    obtain ⟨rfl, rfl⟩ := h1
    subst h2 h3 h6 h7 h8
    exact .cons ⟨⟨rfl, rfl⟩, rfl, rfl, h4, h5⟩ (.send _ _ _ (.one _ _ _ (.tick _ rfl))) (.cons ⟨⟨rfl, rfl⟩, rfl, rfl, h4, h5⟩ (.send _ _ _ (.one _ _ _ (.flushOpen _ rfl rfl)))
      (.cons ⟨⟨rfl, rfl⟩, rfl, rfl, h4, h5⟩ (.send _ _ _ (.one _ _ _ (.flushEmpty _ rfl rfl rfl))) (.nil ⟨⟨rfl, rfl⟩, rfl, rfl, h4, h5⟩)))
  exact hrest _ ⟨rfl, rfl⟩ rfl rfl ⟨rfl, rfl⟩ (fun c => by by_cases h : c = 3 <;> simp [Worker.upd, h, Pipe.init, Worker.initial]) rfl rfl rfl

theorem inTurn_sub {L : Type} {a b : List (Pipe.Label (Unbuf.Label L))} (h : ∀ l ∈ a, l ∈ b) : ∀ l ∈ inTurnPipe a, l ∈ inTurnPipe b := by
  intro l hl
  obtain ⟨x, hx, h2⟩ := List.mem_flatMap.1 hl
  exact List.mem_flatMap.2 ⟨x, h x hx, h2⟩

theorem unbuf_example_good : GoodCalls .tlv (inTurnPipe (unbufRun ++ unbufCyc)) ∧ OnlyBuffered (inTurnPipe (unbufRun ++ unbufCyc)) := by
  constructor
  · intro i m h
    simp [unbufRun, unbufCyc, inTurnPipe] at h
    exact ⟨pipeMsg, by decide, by rw [h.2]; decide +kernel⟩
  · intro i m h
    simp [unbufRun, unbufCyc, inTurnPipe] at h

/-- The hypotheses of `C141_tcp` and `C141_arrives` hold of it. -/
example : ∃ e : Exec (Pipe.Step (Unbuf.TcpStep 16) (Unbuf.written tcpWritten) .tlv false (fun c => c % 2) 1 3), e.run 0 = Pipe.init {} .tlv ∧ (∀ n, (e.run n).snd.closed = false ∧ (e.run n).snd.broken = false) ∧
    (∀ n, GoodCalls .tlv (inTurnPipe (e.trace n))) ∧ (∀ n, OnlyBuffered (inTurnPipe (e.trace n))) ∧ e.WeakFair (bySender (partly Send.Inner)) ∧ e.StrongFair (bySender (partly fun l => l = .tick)) ∧
    e.WeakFair isRead ∧ e.WeakFair (byWorker (workerActs 1)) ∧ e.StrongFair (byWorker (readerActs 3)) ∧ Send.enqOf (sendTr (inTurnPipe (e.trace 6))) = [packOf .tlv pipeMsg] := by
  obtain ⟨s, h1, h2⟩ := unbuf_example
  obtain ⟨e, e1, e2, e3, e4, e5, e6, e7⟩ := Exec.ofLasso h1 h2 (by decide) (fun _ h => h.1)
  have hsub : ∀ n, ∀ l ∈ inTurnPipe (e.trace n), l ∈ inTurnPipe (unbufRun ++ unbufCyc) := fun n => inTurn_sub fun l hl => List.mem_append.2 (e7 n l hl)
  refine ⟨e, e1, e3, fun n i m hm => unbuf_example_good.1 i m (hsub n _ hm), fun n i m hm => unbuf_example_good.2 i m (hsub n _ hm),
    Exec.weakFair_of_often (e5 (.send (.one .winside)) (by simp [unbufCyc])) (.inl rfl), Exec.strongFair_of_often (e5 (.send (.one .tick)) (by simp [unbufCyc])) rfl,
    Exec.weakFair_of_never (N := unbufRun.length) (fun n hn => ?_), Exec.weakFair_of_never (N := unbufRun.length) (fun n hn => ?_), Exec.strongFair_of_never (N := unbufRun.length) (fun n hn => ?_), by rw [e2 6 (by decide)]; decide +kernel⟩
  all_goals
    obtain ⟨⟨_, _⟩, h2, h3, ⟨h4, h5⟩, h6⟩ := e4 n hn
    intro ⟨l, t, hA, hs⟩
    generalize e.run n = s at *
    cases hs <;> simp only [byWorker, isRead] at hA
  · rename_i hx hf _ _ _ _
    rw [h2] at hf
    exact hx (List.append_eq_nil_iff.1 hf.symm).1
  · rename_i h
    cases h <;> grind [workerActs]
  · rename_i h
    cases h <;> grind [readerActs]

/-- The same on a WebSocket connection. -/
def wsOver : List (Pipe.Label (Unbuf.Label WsSend.Label)) := [.send (.one (.call 0 endBytes true)), .send (.one (.lock 0)), .send (.both (.enq 0 endBytes) .recv), .send (.one .wlock), .send (.one (.wwrite endBytes)),
  .send (.one (.wend endBytes)), .read endBytes [endReq], .work (.submit 1 endReq), .work (.start 1 endReq), .work (.finish 1 endReq .returned)]

theorem wsOver_steps : ∃ s, StepsAll (Pipe.Step Unbuf.WsStep (Unbuf.written wsWritten) .tlv false (fun c => c % 2) 1 3) (fun s => s.snd.cancelled = false ∧ s.snd.broken = false) (Pipe.init {} .tlv) wsOver s ∧
    EndRest s ∧ s.snd.writer = .select ∧ s.snd.chan = some ⟨[], false⟩ ∧ (∀ i, s.snd.s i = .idle) ∧ s.snd.fin = .waiting := by
  refine ⟨_, .cons ⟨rfl, rfl⟩ (.send _ _ _ (.one _ _ _ (.call _ 0 endBytes true rfl))) (.cons ⟨rfl, rfl⟩ (.send _ _ _ (.one _ _ _ (.buffOpen _ 0 endBytes rfl rfl rfl)))
    (.cons ⟨rfl, rfl⟩ (.send _ _ _ (.both _ _ _ _ (.over _ 0 endBytes rfl rfl rfl)))
    (.cons ⟨rfl, rfl⟩ (.send _ _ _ (.one _ _ _ (.wOpen _ endBytes rfl rfl rfl))) (.cons ⟨rfl, rfl⟩ (.send _ _ _ (.one _ _ _ (.wwrite _ [] endBytes [] rfl (by decide) rfl)))
    (.cons ⟨rfl, rfl⟩ (.send _ _ _ (.one _ _ _ (.wend _ endBytes rfl rfl))) (.cons ⟨rfl, rfl⟩ (.read _ endBytes [] endDec _ _ (by decide) rfl rfl end_recv _ (.arrive _ 3 _ rfl (by decide)))
    (.cons ⟨rfl, rfl⟩ (.work _ _ (by intro _ h; cases h) _ (.deliver _ 3 _ [] rfl (by decide))) (.cons ⟨rfl, rfl⟩ (.work _ _ (by intro _ h; cases h) _ (.take _ 1 _ [] rfl rfl))
    (.cons ⟨rfl, rfl⟩ (.work _ _ (by intro _ h; cases h) _ (.finish _ 1 _ _ rfl)) (.nil ⟨rfl, rfl⟩)))))))))), ⟨rfl, rfl, rfl, fun c => ?_⟩, rfl, rfl, fun i => ?_, rfl⟩
  · by_cases h : c = 3 <;> simp [Worker.upd, h, Pipe.init, Worker.initial]
  · by_cases h : i = 0 <;> simp [WsSend.set, h, Pipe.init]

theorem wsOver_good : GoodWs .tlv (inTurnPipe wsOver) := by
  intro i m b h
  simp [wsOver, inTurnPipe] at h
  exact ⟨endMsg, by decide, by rw [h.2.1]; decide +kernel⟩

/-- The hypotheses of `C141_ws` and `C141_ws_arrives` hold of it. -/
example : ∃ e : Exec (Pipe.Step Unbuf.WsStep (Unbuf.written wsWritten) .tlv false (fun c => c % 2) 1 3), e.run 0 = Pipe.init {} .tlv ∧ (∀ n, (e.run n).snd.cancelled = false ∧ (e.run n).snd.broken = false) ∧
    (∀ n, GoodWs .tlv (inTurnPipe (e.trace n))) ∧ (∀ i, e.WeakFair (bySender (partly (WsSend.Label.inside i)))) ∧ e.WeakFair (bySender (partly WsSend.Label.winside)) ∧
    e.StrongFair (bySender (partly (· = .wlock))) ∧ e.WeakFair isRead ∧ e.WeakFair (byWorker (workerActs 1)) ∧ e.StrongFair (byWorker (readerActs 3)) ∧
    WsSend.enqOf (sendTr (inTurnPipe (e.trace 3))) = [packOf .tlv endMsg] := by
  obtain ⟨s, h1, h2, h3, h4, h5, h6⟩ := wsOver_steps
  obtain ⟨e, e1, e2, e3, e4⟩ := Exec.ofStepsAll h1
  have htr : ∀ n, e.trace n = wsOver.take n := e.trace_of_act e2
  have hq := e3 wsOver.length
  rw [e4 _ (Nat.le_refl _)] at hq
  obtain ⟨q1, q2, q3⟩ := end_quiet (st := Unbuf.WsStep) (wr := Unbuf.written wsWritten) h2
  refine ⟨e, e1, e3, fun n i m b h => wsOver_good i m b (inTurn_sub (fun l hl => List.mem_of_mem_take (htr n ▸ hl)) _ h), fun i => Exec.weakFair_of_end e4 ?_, Exec.weakFair_of_end e4 ?_,
    Exec.strongFair_of_end e4 ?_, Exec.weakFair_of_end e4 q1, Exec.weakFair_of_end e4 q2, Exec.strongFair_of_end e4 q3, by rw [htr]; decide +kernel⟩
  all_goals
    intro ⟨l, t, hA, hs⟩
    cases hs <;> simp only [bySender] at hA
    rename_i h
    cases h with
    | both _ _ _ h => cases h; simp_all
    | one _ _ h => cases h <;> simp [partly, WsSend.Label.inside, WsSend.Label.winside] at hA <;> simp_all

/-- The same on a KCP connection. -/
def kcpOver : List (Pipe.Label (Unbuf.Label KcpSend.Label)) := [.send (.one (.call 0 endBytes .buff)), .send (.one (.own 0)), .send (.one (.own 0)), .send (.one (.make 0)), .send (.one (.own 0)), .send (.one (.weval 0)),
  .send (.both (.enq 0 endBytes 0) (.recv 0)), .send (.one (.wlock 0)), .send (.one (.wwrite 0 endBytes)), .send (.one (.weval 0)), .read endBytes [endReq], .work (.submit 1 endReq), .work (.start 1 endReq),
  .work (.finish 1 endReq .returned)]

theorem kcpOver_steps : ∃ s, StepsAll (Pipe.Step Unbuf.KcpStep (Unbuf.written kcpWritten) .tlv false (fun c => c % 2) 1 3) (fun s => s.snd.cancelled = false ∧ s.snd.broken = false) (Pipe.init {} .tlv) kcpOver s ∧
    EndRest s ∧ s.snd.w 0 = .sel 0 ∧ s.snd.chan 0 = ⟨[], false⟩ ∧ ∀ i, s.snd.s i = .idle := by
  refine ⟨_, .cons ⟨rfl, rfl⟩ (.send _ _ _ (.one _ _ _ (.call _ 0 endBytes .buff rfl))) (.cons ⟨rfl, rfl⟩ (.send _ _ _ (.one _ _ _ (.buffOpen _ 0 endBytes rfl rfl)))
    (.cons ⟨rfl, rfl⟩ (.send _ _ _ (.one _ _ _ (.isNil _ 0 endBytes false rfl rfl))) (.cons ⟨rfl, rfl⟩ (.send _ _ _ (.one _ _ _ (.make _ 0 endBytes false rfl)))
    (.cons ⟨rfl, rfl⟩ (.send _ _ _ (.one _ _ _ (.eval _ 0 endBytes false 0 rfl rfl))) (.cons ⟨rfl, rfl⟩ (.send _ _ _ (.one _ _ _ (.weval _ 0 0 rfl rfl)))
    (.cons ⟨rfl, rfl⟩ (.send _ _ _ (.both _ _ _ _ (.over _ 0 endBytes false 0 0 rfl rfl rfl rfl))) (.cons ⟨rfl, rfl⟩ (.send _ _ _ (.one _ _ _ (.wOpen _ 0 endBytes rfl rfl rfl)))
    (.cons ⟨rfl, rfl⟩ (.send _ _ _ (.one _ _ _ (.wwrite _ 0 endBytes rfl rfl))) (.cons ⟨rfl, rfl⟩ (.send _ _ _ (.one _ _ _ (.weval _ 0 0 rfl rfl)))
    (.cons ⟨rfl, rfl⟩ (.read _ endBytes [] endDec _ _ (by decide) rfl rfl end_recv _ (.arrive _ 3 _ rfl (by decide)))
    (.cons ⟨rfl, rfl⟩ (.work _ _ (by intro _ h; cases h) _ (.deliver _ 3 _ [] rfl (by decide))) (.cons ⟨rfl, rfl⟩ (.work _ _ (by intro _ h; cases h) _ (.take _ 1 _ [] rfl rfl))
    (.cons ⟨rfl, rfl⟩ (.work _ _ (by intro _ h; cases h) _ (.finish _ 1 _ _ rfl)) (.nil ⟨rfl, rfl⟩)))))))))))))), ⟨rfl, rfl, rfl, fun c => ?_⟩, rfl, rfl, fun i => ?_⟩
  · by_cases h : c = 3 <;> simp [Worker.upd, h, Pipe.init, Worker.initial]
  · by_cases h : i = 0 <;> simp [KcpSend.set, h, Pipe.init]

theorem kcpOver_good : GoodKcp .tlv (inTurnPipe kcpOver) ∧ ∀ j m q, .send (.call j m q) ∈ inTurnPipe kcpOver → j = 0 := by
  constructor
  · intro i m b h
    simp [kcpOver, inTurnPipe] at h
    exact ⟨endMsg, by decide, by rw [h.2.1]; decide +kernel⟩
  · intro i m b h
    simp [kcpOver, inTurnPipe] at h
    exact h.1

/-- The hypotheses of `C141_kcp` and `C141_kcp_arrives_partial` hold of it. -/
example : ∃ e : Exec (Pipe.Step Unbuf.KcpStep (Unbuf.written kcpWritten) .tlv false (fun c => c % 2) 1 3), e.run 0 = Pipe.init {} .tlv ∧ (∀ n, (e.run n).snd.cancelled = false ∧ (e.run n).snd.broken = false) ∧
    (∀ n, GoodKcp .tlv (inTurnPipe (e.trace n))) ∧ e.WeakFair isRead ∧ e.WeakFair (byWorker (workerActs 1)) ∧ e.StrongFair (byWorker (readerActs 3)) ∧
    e.WeakFair (bySender (partly (KcpSend.Label.writer 0))) ∧ (∀ j m q, .send (.call j m q) ∈ inTurnPipe (e.trace 7) → q = .buff ∨ q = .queue → j = 0) ∧
    KcpSend.queued (sendTr (inTurnPipe (e.trace 7))) = [packOf .tlv endMsg] := by
  obtain ⟨s, h1, h2, h3, h4, h5⟩ := kcpOver_steps
  obtain ⟨e, e1, e2, e3, e4⟩ := Exec.ofStepsAll h1
  have htr : ∀ n, e.trace n = kcpOver.take n := e.trace_of_act e2
  have hq := e3 kcpOver.length
  rw [e4 _ (Nat.le_refl _)] at hq
  obtain ⟨q1, q2, q3⟩ := end_quiet (st := Unbuf.KcpStep) (wr := Unbuf.written kcpWritten) h2
  refine ⟨e, e1, e3, fun n i m b h => kcpOver_good.1 i m b (inTurn_sub (fun l hl => List.mem_of_mem_take (htr n ▸ hl)) _ h), Exec.weakFair_of_end e4 q1, Exec.weakFair_of_end e4 q2, Exec.strongFair_of_end e4 q3,
    Exec.weakFair_of_end e4 ?_, fun j m q h _ => kcpOver_good.2 j m q (inTurn_sub (fun l hl => List.mem_of_mem_take (htr 7 ▸ hl)) _ h), by rw [htr]; decide +kernel⟩
  intro ⟨l, t, hA, hs⟩
  cases hs <;> simp only [bySender] at hA
  rename_i h
  cases h with
  | both _ _ _ h => cases h; simp_all
  | one _ _ h => cases h <;> simp [partly, KcpSend.Label.writer] at hA <;> simp_all

end Zinx.Props
