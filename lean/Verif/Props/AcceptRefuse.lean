import Verif.Props.Accept
import Verif.Model.Fair
import Verif.Lemmas.ExecOf

/-! # Turning clients away at the limit: C80 -/

namespace Zinx.Props

open Zinx Zinx.ShardMap Zinx.ConnMgr Zinx.Accept

/-- The full claim C80: whenever the check of goroutine `t`, begun after `pre`, refuses a client, there was a moment between the beginning of the
check and the refusal at which the manager held at least `maxConn` connections. -/
def RefusesOnlyWhenFull (mode : Mode) (maxConn : Nat) : Prop :=
  ∀ (t : Nat) (s0 s1 s2 s3 : State) (pre mid : List Act), Steps (Accept.Step mode maxConn) initial pre s0 →
    Accept.Step mode maxConn s0 (.begin t) s1 → Steps (Accept.Step mode maxConn) s1 mid s2 → Act.begin t ∉ mid →
    Accept.Step mode maxConn s2 (.refuse t) s3 →
    ¬ StepsAll (Accept.Step mode maxConn) (fun s => s.map.count < maxConn) s1 mid s2

/-- **C80 (partial, one listener).** With TCP only or KCP only, a client is refused only if the manager held the maximum when the check began
(together with C33: exactly the maximum). Missing: WebSocket and the mixed mode (false, see below). -/
theorem C80_partial {mode : Mode} (hm : mode = .tcp ∨ mode = .kcp) {maxConn : Nat} (t : Nat) (s0 s1 s2 s3 : State) (pre mid : List Act)
    (h0 : Steps (Accept.Step mode maxConn) initial pre s0) (h1 : Accept.Step mode maxConn s0 (.begin t) s1)
    (h2 : Steps (Accept.Step mode maxConn) s1 mid s2) (hn : Act.begin t ∉ mid) (h3 : Accept.Step mode maxConn s2 (.refuse t) s3) :
    s0.map.count = maxConn := by
  have hr : ∀ t, mode.runs t → t = 0 := by
    intro t ht
    rcases hm with rfl | rfl <;> exact ht
  have hle := (C33_partial hm h0).2
  have ht : t = 0 := by cases h1 with | begin _ hr' _ => exact hr t hr'
  subst ht
  have i0 := single_inv hr h0
  have key : Wf s2.map ∧ (∀ t, t ≠ 0 → s2.thread t = .idle) ∧
      ∀ i sum, s2.thread 0 = .counting i sum → sum + s2.map.rest i ≤ s0.map.count := by
    have base : Wf s1.map ∧ (∀ t, t ≠ 0 → s1.thread t = .idle) ∧
        ∀ i sum, s1.thread 0 = .counting i sum → sum + s1.map.rest i ≤ s0.map.count := by
      cases h1 with
      | begin _ hr' hi =>
        refine ⟨i0.1, fun t ht => by simp [State.goto, ht]; exact i0.2.2 t ht, fun i sum he => ?_⟩
        simp [State.goto] at he
        obtain ⟨rfl, rfl⟩ := he
        show 0 + s0.map.rest 0 ≤ _
        rw [rest_zero]; omega
    clear h3 h1 hle h0 i0
    induction h2 with
    | nil => exact base
    | @cons s u v l ls hs _ ih =>
      apply ih (fun h => hn (List.mem_cons_of_mem _ h))
      have hl : l ≠ .begin 0 := fun e => hn (by rw [e]; simp)
      obtain ⟨w, o, c⟩ := base
      have gotoO : ∀ x t, t ≠ 0 → (s.goto 0 x).thread t = .idle := fun x t ht => by simp [State.goto, ht]; exact o t ht
      have only : ∀ t, s.thread t ≠ .idle → t = 0 := fun t ht => Classical.byContradiction fun c => ht (o t c)
      cases hs with
      | begin t hr' ht => exact absurd (by rw [hr t hr']) hl
      | visit t i sum ht hi =>
        have := only t (by rw [ht]; simp); subst this
        refine ⟨w, gotoO _, fun i' sum' he => ?_⟩
        simp [State.goto] at he
        obtain ⟨rfl, rfl⟩ := he
        have := c i sum ht
        have r := rest_next s.map hi
        show sum + (s.map.shard i).length + s.map.rest (i + 1) ≤ _
        omega
      | refuse t sum ht _ =>
        have := only t (by rw [ht]; simp); subst this
        exact ⟨w, gotoO _, fun _ _ he => by simp [State.goto] at he⟩
      | pass t sum ht _ =>
        have := only t (by rw [ht]; simp); subst this
        exact ⟨w, gotoO _, fun _ _ he => by simp [State.goto] at he⟩
      | fail t ht =>
        have := only t (by rw [ht]; simp); subst this
        exact ⟨w, gotoO _, fun _ _ he => by simp [State.goto] at he⟩
      | newId t ht =>
        have := only t (by rw [ht]; simp); subst this
        exact ⟨w, gotoO _, fun _ _ he => by simp [State.goto] at he⟩
      | add t id handle ht =>
        have := only t (by rw [ht]; simp); subst this
        exact ⟨set_wf w _ _, gotoO _, fun _ _ he => by simp [State.goto] at he⟩
      | remove x =>
        refine ⟨remove_wf w _, o, fun i sum he => ?_⟩
        have := c i sum he
        have r := rest_remove w x.idStr i
        show sum + (s.map.remove x.idStr).rest i ≤ _
        omega
  cases h3 with
  | refuse _ sum ht hs =>
    have := key.2.2 _ _ ht
    rw [rest_end s2.map (Nat.le_refl _)] at this
    omega

/-- A server with maximum 0 meets the hypotheses: its first client is refused. -/
example : ∃ s0 s1 s2 s3 mid, Steps (Accept.Step .tcp 0) initial [] s0 ∧ Accept.Step .tcp 0 s0 (.begin 0) s1 ∧
    Steps (Accept.Step .tcp 0) s1 mid s2 ∧ Act.begin 0 ∉ mid ∧ Accept.Step .tcp 0 s2 (.refuse 0) s3 := by
  have visits' : ∀ (d : Nat) (s : State) (i sum : Nat), s.thread 0 = .counting i sum → i + d = s.map.shards.length →
      ∃ ls s' sum', Act.begin 0 ∉ ls ∧ Steps (Accept.Step .tcp 0) s ls s' ∧ s'.thread 0 = .counting s'.map.shards.length sum' := by
    intro d
    induction d with
    | zero => intro s i sum h hd; exact ⟨[], s, sum, by simp, .nil _, by rw [h]; congr 1⟩
    | succ d ih =>
      intro s i sum h hd
      obtain ⟨ls, s', sum', h1, h2, h3⟩ := ih (s.goto 0 (.counting (i + 1) (sum + (s.map.shard i).length))) (i + 1)
        (sum + (s.map.shard i).length) (by simp [State.goto]) (by show i + 1 + d = s.map.shards.length; omega)
      exact ⟨.visit 0 :: ls, s', sum', by simp [h1], .cons (.visit _ 0 i sum h (by omega)) h2, h3⟩
  obtain ⟨ls, s', sum', h1, h2, h3⟩ := visits' newConnManager.shards.length (initial.goto 0 (.counting 0 0)) 0 0 (by simp [State.goto])
    (by show 0 + newConnManager.shards.length = newConnManager.shards.length; omega)
  exact ⟨_, _, s', _, ls, .nil _, .begin _ 0 rfl rfl, h2, h1, .refuse s' 0 sum' h3 (by omega)⟩

theorem stepsAll_append {S L : Type} {step : S → L → S → Prop} {Q : S → Prop} {s t u : S} {a b : List L} (h1 : StepsAll step Q s a t)
    (h2 : StepsAll step Q t b u) : StepsAll step Q s (a ++ b) u := by
  induction h1 with
  | nil _ => exact h2
  | cons hq hs _ ih => exact .cons hq hs (ih h2)

theorem rest_mono (m : Shards Bytes Conn) (i : Nat) (d : Nat) : m.rest (i + d) ≤ m.rest i := by
  induction d with
  | zero => exact Nat.le_refl _
  | succ d ih =>
    by_cases h : i + d < m.shards.length
    · have := rest_next m h
      rw [show i + (d + 1) = i + d + 1 by omega]; omega
    · rw [rest_end m (by omega)]; omega

/-- Part of a count, nothing else happening. -/
theorem visits_part {mode : Mode} {maxConn : Nat} {Q : Shards Bytes Conn → Prop} (t : Nat) (d : Nat) : ∀ (s : State) (i sum : Nat),
    s.thread t = .counting i sum → i + d ≤ s.map.shards.length → Q s.map → ∃ ls, Act.begin t ∉ ls ∧
      StepsAll (Accept.Step mode maxConn) (fun s => Q s.map) s ls
        (s.goto t (.counting (i + d) (sum + (s.map.rest i - s.map.rest (i + d))))) := by
  induction d with
  | zero =>
    intro s i sum h hd hq
    refine ⟨[], by simp, ?_⟩
    rw [Nat.add_zero, Nat.sub_self, Nat.add_zero, goto_self h]
    exact .nil hq
  | succ d ih =>
    intro s i sum h hd hq
    have hi : i < s.map.shards.length := by omega
    obtain ⟨ls, h0, hl⟩ := ih (s.goto t (.counting (i + 1) (sum + (s.map.shard i).length))) (i + 1) (sum + (s.map.shard i).length)
      (by simp [State.goto]) (by show i + 1 + d ≤ s.map.shards.length; omega) hq
    rw [goto_goto] at hl
    refine ⟨.visit t :: ls, by simp [h0], .cons hq (.visit _ t i sum h hi) ?_⟩
    have r := rest_next s.map hi
    have := rest_mono s.map (i + 1) d
    have e : sum + (s.map.rest i - s.map.rest (i + (d + 1))) =
        sum + (s.map.shard i).length + (s.map.rest (i + 1) - s.map.rest (i + 1 + d)) := by
      rw [show i + (d + 1) = i + 1 + d by omega]
      omega
    rw [e, show i + (d + 1) = i + 1 + d by omega]
    exact hl

/-- **C80 is false of the code** for WebSocket and the mixed mode. The maximum is 2. While a third request counts, connection 2 is counted and
then leaves, and connection 1 comes in and is counted too: the request is refused although never more than one connection was there. -/
theorem C80_refuted (mode : Mode) (hm : mode = .websocket ∨ mode = .both) : ¬ RefusesOnlyWhenFull mode 2 := by
  have h1 : mode.runs 1 := by rcases hm with rfl | rfl <;> simp [Mode.runs]
  have h2 : mode.runs 2 := by rcases hm with rfl | rfl <;> simp [Mode.runs]
  have h3 : mode.runs 3 := by rcases hm with rfl | rfl <;> simp [Mode.runs]
  have c0 : newConnManager.count = 0 := by decide +kernel
  have i1 : Conn.idStr ⟨0, 1⟩ = [49] := by unfold Conn.idStr formatUint; rfl
  have i2 : Conn.idStr ⟨1, 2⟩ = [50] := by unfold Conn.idStr formatUint; rfl
  intro H
  obtain ⟨la, _, ha⟩ := passes (mode := mode) (maxConn := 2) initial 2 h2 rfl (by show newConnManager.count < 2; omega)
  obtain ⟨lb, _, hb⟩ := passes (mode := mode) (maxConn := 2) (initial.goto 2 .passed) 3 h3 rfl (by show newConnManager.count < 2; omega)
  let m2 : Shards Bytes Conn := newConnManager.set [50] ⟨1, 2⟩
  let m1 : Shards Bytes Conn := (m2.remove [50]).set [49] ⟨0, 1⟩
  have hpre := (ha.append hb).append
    (.cons (.newId _ 2 (by simp [State.goto])) (.cons (.newId _ 3 (by simp [State.goto])) (.cons (.add _ 3 2 1 rfl) (.nil _))))
  generalize hs0 : ({ State.goto _ 3 .idle with map := _ } : State) = s0 at hpre
  have hmap : s0.map = m2 := by
    rw [← hs0]
    show newConnManager.set (Conn.idStr ⟨1, 2⟩) ⟨1, 2⟩ = m2
    rw [i2]
  have hth : s0.thread 1 = .idle ∧ s0.thread 2 = .hasId 1 := by
    rw [← hs0]
    exact ⟨rfl, rfl⟩
  clear hs0 ha hb
  obtain ⟨l1, n1, v1⟩ := visits_part (mode := mode) (maxConn := 2) (Q := fun m => m.count < 2) 1 14 (s0.goto 1 (.counting 0 0)) 0 0
    (by simp [State.goto]) (by show _ ≤ s0.map.shards.length; rw [hmap]; decide +kernel) (by show s0.map.count < 2; rw [hmap]; decide +kernel)
  rw [goto_goto] at v1
  have e1 : (s0.goto 1 (.counting 0 0)).map.rest 0 - (s0.goto 1 (.counting 0 0)).map.rest (0 + 14) = 1 := by
    show s0.map.rest 0 - s0.map.rest (0 + 14) = 1
    rw [hmap]; decide +kernel
  rw [e1] at v1
  let sa := s0.goto 1 (.counting 14 1)
  let sb : State := { sa with map := sa.map.remove (Conn.idStr ⟨1, 2⟩) }
  let sc : State := { sb.goto 2 .idle with map := sb.map.set (Conn.idStr ⟨0, 1⟩) ⟨0, 1⟩ }
  have hsb : sb.map = m2.remove [50] := by show s0.map.remove _ = _; rw [hmap, i2]
  have hsc : sc.map = m1 := by show sb.map.set _ _ = _; rw [hsb, i1]
  have st1 : Accept.Step mode 2 sa (.remove ⟨1, 2⟩) sb := .remove _ _
  have st2 : Accept.Step mode 2 sb (.add 2 1) sc := .add _ 2 1 0 (by simp [sb, sa, State.goto, hth.2])
  obtain ⟨l2, n2, v2⟩ := visits_part (mode := mode) (maxConn := 2) (Q := fun m => m.count < 2) 1 (m1.shards.length - 14) sc 14 1
    (by simp [sc, sb, sa, State.goto]) (by rw [hsc]; decide +kernel) (by rw [hsc]; decide +kernel)
  have e2 : sc.map.rest 14 - sc.map.rest (14 + (m1.shards.length - 14)) = 1 := by rw [hsc]; decide +kernel
  have e3 : 14 + (m1.shards.length - 14) = sc.map.shards.length := by rw [hsc]; decide +kernel
  rw [e2, e3] at v2
  have mid := stepsAll_append v1 (.cons (by show s0.map.count < 2; rw [hmap]; decide +kernel) st1
    (.cons (by show sb.map.count < 2; rw [hsb]; decide +kernel) st2 v2))
  refine H 1 s0 (s0.goto 1 (.counting 0 0)) _ _ _ _ hpre (.begin s0 1 h1 hth.1) mid.steps ?_
    (.refuse (sc.goto 1 (.counting sc.map.shards.length (1 + 1))) 1 2 (by simp [State.goto]) (by omega)) mid
  simp [n1, n2]

theorem set_shards (m : Shards Bytes Conn) (k : Bytes) (v : Conn) : (m.set k v).shards.length = m.shards.length := update_length m (.set k v)
theorem remove_shards (m : Shards Bytes Conn) (k : Bytes) : (m.remove k).shards.length = m.shards.length := update_length m (.remove k)

/-- Actions of the check of goroutine `t`. -/
def isCountStep (t : Nat) (a : Act) : Prop := a = .visit t ∨ a = .refuse t ∨ a = .pass t

theorem counting_bound (mode : Mode) (maxConn : Nat) {s : State} {l : Act} {u : State}
    (h : ∀ t i sum, s.thread t = .counting i sum → i ≤ s.map.shards.length) (hs : Accept.Step mode maxConn s l u) :
    ∀ t i sum, u.thread t = .counting i sum → i ≤ u.map.shards.length := by
  have go : ∀ t0 x, (∀ i sum, x = .counting i sum → i ≤ s.map.shards.length) →
      ∀ t i sum, (s.goto t0 x).thread t = .counting i sum → i ≤ s.map.shards.length := by
    intro t0 x hx t i sum he
    by_cases e : t = t0
    · subst e; simp [State.goto] at he; exact hx i sum he
    · simp [State.goto, e] at he; exact h t i sum he
  cases hs with
  | begin t _ _ => exact go t _ (by intro i sum e; cases e; omega)
  | visit t i sum _ hi => exact go t _ (by intro i sum e; cases e; omega)
  | refuse t _ _ _ => exact go t _ (by intro i sum e; cases e)
  | pass t _ _ _ => exact go t _ (by intro i sum e; cases e)
  | fail t _ => exact go t _ (by intro i sum e; cases e)
  | newId t _ => exact go t _ (by intro i sum e; cases e)
  | add t id handle _ => dsimp only; rw [set_shards]; exact go t _ (by intro i sum e; cases e)
  | remove c => dsimp only; rw [remove_shards]; exact h

/-- **C80 (every check is decided).** In every execution in which a counting goroutine keeps being scheduled, its check ends: the client is
let in or refused, whatever else happens. -/
theorem C80_decides {mode : Mode} {maxConn : Nat} (e : Exec (Accept.Step mode maxConn)) (h0 : e.run 0 = initial) (t : Nat)
    (hf : e.WeakFair (isCountStep t)) (n i sum : Nat) (hn : (e.run n).thread t = .counting i sum) :
    ∃ m, n ≤ m ∧ ((e.run m).thread t = .passed ∨ (e.run m).thread t = .idle) := by
  have inv := e.invariant (P := fun s => ∀ t i sum, s.thread t = .counting i sum → i ≤ s.map.shards.length)
    (fun s l u h hs => counting_bound mode maxConn h hs) (n := 0) (by rw [h0]; intro t i sum h; simp [initial] at h)
  refine e.leads_weak_dec hf (P := fun s => (∀ t i sum, s.thread t = .counting i sum → i ≤ s.map.shards.length) ∧
    ∃ i sum, s.thread t = .counting i sum) (Q := fun s => s.thread t = .passed ∨ s.thread t = .idle)
    (fun s => match s.thread t with | .counting i _ => s.map.shards.length - i | _ => 0) ?_ ?_ ?_ ⟨inv n (by omega), i, sum, hn⟩
  · rintro s l u ⟨hb, i, sum, hi⟩ hs
    have hb' := counting_bound mode maxConn hb hs
    cases hs with
    | begin t' _ ht =>
      by_cases e' : t = t'
      · subst e'; rw [hi] at ht; cases ht
      · have : (s.goto t' (.counting 0 0)).thread t = .counting i sum := by simp [State.goto, e', hi]
        exact .inl ⟨⟨hb', i, sum, this⟩, by simp only [this, hi]; exact Nat.le_refl _⟩
    | visit t' i' sum' ht hlt =>
      by_cases e' : t = t'
      · subst e'; rw [hi] at ht; cases ht
        refine .inl ⟨⟨hb', i + 1, _, by simp [State.goto]; rfl⟩, ?_⟩
        simp only [State.goto, hi, if_true]; omega
      · have : (s.goto t' (.counting (i' + 1) (sum' + (s.map.shard i').length))).thread t = .counting i sum := by simp [State.goto, e', hi]
        exact .inl ⟨⟨hb', i, sum, this⟩, by simp only [this, hi]; exact Nat.le_refl _⟩
    | refuse t' _ ht _ =>
      by_cases e' : t = t'
      · subst e'; exact .inr (.inr (by simp [State.goto]))
      · have : (s.goto t' .idle).thread t = .counting i sum := by simp [State.goto, e', hi]
        exact .inl ⟨⟨hb', i, sum, this⟩, by simp only [this, hi]; exact Nat.le_refl _⟩
    | pass t' _ ht _ =>
      by_cases e' : t = t'
      · subst e'; exact .inr (.inl (by simp [State.goto]))
      · have : (s.goto t' .passed).thread t = .counting i sum := by simp [State.goto, e', hi]
        exact .inl ⟨⟨hb', i, sum, this⟩, by simp only [this, hi]; exact Nat.le_refl _⟩
    | fail t' ht =>
      by_cases e' : t = t'
      · subst e'; rw [hi] at ht; cases ht
      · have : (s.goto t' .idle).thread t = .counting i sum := by simp [State.goto, e', hi]
        exact .inl ⟨⟨hb', i, sum, this⟩, by simp only [this, hi]; exact Nat.le_refl _⟩
    | newId t' ht =>
      by_cases e' : t = t'
      · subst e'; rw [hi] at ht; cases ht
      · have : (s.goto t' (.hasId (s.cID + 1))).thread t = .counting i sum := by simp [State.goto, e', hi]
        exact .inl ⟨⟨hb', i, sum, this⟩, by simp only [this, hi]; exact Nat.le_refl _⟩
    | add t' id handle ht =>
      by_cases e' : t = t'
      · subst e'; rw [hi] at ht; cases ht
      · have : (s.goto t' .idle).thread t = .counting i sum := by simp [State.goto, e', hi]
        exact .inl ⟨⟨hb', i, sum, this⟩, by simp only [this, hi, set_shards]; exact Nat.le_refl _⟩
    | remove c => exact .inl ⟨⟨hb', i, sum, hi⟩, by simp only [hi, remove_shards]; exact Nat.le_refl _⟩
  · rintro s l u ⟨hb, i, sum, hi⟩ hs hA
    have hb' := counting_bound mode maxConn hb hs
    rcases hA with rfl | rfl | rfl
    · cases hs with
      | visit _ i' sum' ht hlt =>
        rw [hi] at ht; cases ht
        refine .inl ⟨⟨hb', i + 1, _, by simp [State.goto]; rfl⟩, ?_⟩
        simp only [State.goto, hi, if_true]; omega
    · cases hs with
      | refuse _ _ _ _ => exact .inr (.inr (by simp [State.goto]))
    · cases hs with
      | pass _ _ _ _ => exact .inr (.inl (by simp [State.goto]))
  · rintro s ⟨hb, i, sum, hi⟩
    have hle := hb t i sum hi
    by_cases h : i < s.map.shards.length
    · exact ⟨_, _, .inl rfl, .visit s t i sum hi h⟩
    · have : i = s.map.shards.length := by omega
      subst this
      by_cases hc : maxConn ≤ sum
      · exact ⟨_, _, .inr (.inl rfl), .refuse s t sum hi hc⟩
      · exact ⟨_, _, .inr (.inr rfl), .pass s t sum hi (by omega)⟩

/-- A fair execution with a check exists. -/
example : ∃ (e : Exec (Accept.Step .tcp 1)) (n i sum : Nat), e.run 0 = initial ∧ e.WeakFair (isCountStep 0) ∧ (e.run n).thread 0 = .counting i sum := by
  obtain ⟨ls, _, hl⟩ := Accept.visits (mode := .tcp) (maxConn := 1) 0 newConnManager.shards.length (initial.goto 0 (.counting 0 0)) 0 0
    (by simp [State.goto]) (by show 0 + newConnManager.shards.length = newConnManager.shards.length; omega)
  rw [goto_goto] at hl
  have c0 : newConnManager.rest 0 = 0 := by decide +kernel
  have h : Steps (Accept.Step .tcp 1) initial (.begin 0 :: (ls ++ [.pass 0])) _ :=
    .cons (.begin initial 0 rfl rfl) (hl.snoc (.pass _ 0 _ rfl (by show 0 + newConnManager.rest 0 < 1; omega)))
  obtain ⟨e, h1, h2, _, h4⟩ := Exec.ofSteps h
  have hs := e.next 0
  rw [h2 0, h1] at hs
  refine ⟨e, 1, 0, 0, h1, Exec.weakFair_of_end h4 ?_, ?_⟩
  · rintro ⟨l, t, rfl | rfl | rfl, hs⟩ <;> cases hs <;> simp_all [State.goto]
  · change Accept.Step .tcp 1 initial (.begin 0) (e.run (0 + 1)) at hs
    show (e.run (0 + 1)).thread 0 = _
    generalize e.run (0 + 1) = t at hs
    cases hs with
    | begin _ _ _ => rfl

end Zinx.Props
