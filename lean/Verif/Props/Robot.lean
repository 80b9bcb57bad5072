import Verif.Model.Robot
import Verif.Props.Wire
import Verif.Lemmas.ExecOf

/-!
# C122: the robots of the demo
-/

namespace Zinx.Props

open Zinx Zinx.Spec Zinx.Frame Zinx.Pack Zinx.Decoder Zinx.Robot

/-! ## Messages -/

theorem robot_unpack (n : Nat) (id : UInt32) (hn : n < 2 ^ 32) : Robot.unpack (le32 n ++ le32 id.toNat) = some ⟨UInt32.ofNat n, id, []⟩ := by
  unfold Robot.unpack
  have l1 : ¬ (le32 n ++ le32 id.toNat).length < 4 := by simp [le32, be32]
  have e1 : (le32 n ++ le32 id.toNat).take 4 = le32 n := rfl
  have e2 : (le32 n ++ le32 id.toNat).drop 4 = le32 id.toNat := rfl
  have l2 : ¬ (le32 id.toNat).length < 4 := by simp [le32, be32]
  have e3 : (le32 id.toNat).take 4 = le32 id.toNat := rfl
  simp only [readUint32, if_neg l1, e1, e2, if_neg l2, e3]
  rw [getUint32_le32 _ (UInt32.toNat_lt id), getUint32_le32 _ hn, UInt32.ofNat_toNat]

theorem ltvWire_head (id : UInt32) (data rest : List UInt8) : (ltvWire id data ++ rest).take 8 = le32 data.length ++ le32 id.toNat := by
  unfold ltvWire; simp only [List.append_assoc]; rfl

theorem ltvWire_tail (id : UInt32) (data rest : List UInt8) : (ltvWire id data ++ rest).drop 8 = data ++ rest := by
  unfold ltvWire; simp only [List.append_assoc]; rfl

theorem robot_read_one (id : UInt32) (data rest : List UInt8) (h : data.length < 2 ^ 32) :
    readLoop (ltvWire id data ++ rest) = (⟨UInt32.ofNat data.length, id, data⟩ :: (readLoop rest).1, (readLoop rest).2) := by
  have hl : (ltvWire id data ++ rest).length = data.length + 8 + rest.length := by rw [List.length_append, ltvWire_length]
  have hn : (UInt32.ofNat data.length).toNat = data.length := by rw [UInt32.toNat_ofNat', Nat.mod_eq_of_lt h]
  rw [readLoop, if_neg (by omega), ltvWire_head, robot_unpack _ _ h]
  simp only [hn]
  rw [if_neg (by omega), ← List.drop_drop, ltvWire_tail, List.take_left, List.drop_left]

/-- A message that has not arrived whole is not handled. -/
theorem robot_read_part (id : UInt32) (data p q : List UInt8) (h : data.length < 2 ^ 32) (hp : ltvWire id data = p ++ q) (hq : q ≠ []) : readLoop p = ([], p) := by
  have hl : p.length + q.length = data.length + 8 := by rw [← List.length_append, ← hp, ltvWire_length]
  have hq' : 0 < q.length := List.length_pos_iff.2 hq
  have hn : (UInt32.ofNat data.length).toNat = data.length := by rw [UInt32.toNat_ofNat', Nat.mod_eq_of_lt h]
  rw [readLoop]
  split
  · rfl
  · rename_i h8
    have e : p.take 8 = le32 data.length ++ le32 id.toNat := by
      have := ltvWire_head id data []
      rwa [List.append_nil, hp, List.take_append_of_le_length (by omega)] at this
    rw [e, robot_unpack _ _ h]
    simp only [hn]
    rw [if_pos (by omega)]

/-- **C122** (the robot understands the server): of the messages the server packed, the robot has handled exactly those that arrived whole, with their IDs and data, however the stream is cut. -/
theorem C122_reads (msgs : List (UInt32 × List UInt8)) (hm : ∀ m ∈ msgs, m.2.length < 2 ^ 32) (next : UInt32 × List UInt8) (hn : next.2.length < 2 ^ 32) (p q : List UInt8)
    (hp : packLtv (newMsgPackage next.1 next.2) = p ++ q) (hq : q ≠ []) :
    (readLoop ((msgs.map fun m => packLtv (newMsgPackage m.1 m.2)).flatten ++ p)).1.map (fun m => (m.id, m.data)) = msgs ∧
    (∀ m ∈ (readLoop ((msgs.map fun m => packLtv (newMsgPackage m.1 m.2)).flatten ++ p)).1, m.len.toNat = m.data.length) ∧
    (readLoop ((msgs.map fun m => packLtv (newMsgPackage m.1 m.2)).flatten ++ p)).2 = p := by
  rw [packLtv_eq _ _ hn] at hp
  induction msgs with
  | nil => simp [robot_read_part _ _ p q hn hp hq]
  | cons m ms ih =>
    obtain ⟨h1, h2, h3⟩ := ih (fun a h => hm a (List.mem_cons_of_mem _ h))
    have hm1 := hm m (List.mem_cons_self ..)
    simp only [List.map_cons, List.flatten_cons, List.append_assoc]
    rw [packLtv_eq _ _ hm1, robot_read_one _ _ _ hm1]
    refine ⟨by simp [h1], ?_, h3⟩
    intro a ha
    rcases List.mem_cons.1 ha with rfl | ha
    · show (UInt32.ofNat m.2.length).toNat = _
      rw [UInt32.toNat_ofNat', Nat.mod_eq_of_lt hm1]
    · exact h2 a ha

example : (readLoop (packLtv (newMsgPackage 1 [8, 1]) ++ packLtv (newMsgPackage 200 []) ++ [5, 0, 0, 0, 200, 0])).1.map (fun m => (m.id, m.data)) = [(1, [8, 1]), (200, [])] := by
  have := (C122_reads [(1, [8, 1]), (200, [])] (by decide) (200, [1, 2, 3, 4, 5]) (by decide) [5, 0, 0, 0, 200, 0] [0, 0, 1, 2, 3, 4, 5] (by decide) (by decide)).1
  simpa using this

/-- **C122** (the server understands the robot): the server's decoder gives the router exactly the messages of the robot that arrived whole, however the stream is cut. -/
theorem C122_heard (msgs : List (UInt32 × List UInt8)) (hm : ∀ m ∈ msgs, m.2.length < 2 ^ 32 - 8) (next : UInt32 × List UInt8) (hn : next.2.length < 2 ^ 32) (p q : List UInt8)
    (hp : Robot.pack next.1 next.2 = p ++ q) (hq : q ≠ []) (reads : List (List UInt8)) (hr : reads.flatten = (msgs.map fun m => Robot.pack m.1 m.2).flatten ++ p) :
    (receiveNew .ltv reads).1.map (fun r => (r.1.id, r.1.data)) = msgs ∧ ∃ d, (receiveNew .ltv reads).2 = .running d := by
  have := C12_ltv_end_to_end msgs hm next hn p q hp hq reads hr
  exact ⟨this.1, this.2.2⟩

example : (receiveNew .ltv [[1, 0, 0], [0, 2, 0, 0, 0, 65, 4], [0]]).1.map (fun r => (r.1.id, r.1.data)) = [(2, [65])] :=
  (C122_heard [(2, [65])] (by decide) (3, [1, 2, 3, 4]) (by decide) [4, 0] [0, 0, 3, 0, 0, 0, 1, 2, 3, 4] (by decide) (by decide) _ (by decide)).1

/-! ## Moves -/

theorem clamp_range (lo hi x : Rat) (h : lo ≤ hi) : lo ≤ clamp lo hi x ∧ clamp lo hi x ≤ hi := by
  unfold clamp
  split
  · exact ⟨h, Rat.le_refl⟩
  · split <;> grind

/-- **C122** (the robot walks within the world): whatever it was told, every position it sends lies in the rectangle of the world, edges included. -/
theorem C122_moves {s t : Robot.State} {x z : Rat} (h : Robot.Step s (.act (.move x z)) t) : 85 ≤ x ∧ x ≤ 410 ∧ 75 ≤ z ∧ z ≤ 400 := by
  cases h with
  | move back i j hi hj hl =>
    have a : (85 : Rat) ≤ 410 := by decide
    have b : (75 : Rat) ≤ 400 := by decide
    unfold walk
    split
    · exact ⟨(clamp_range _ _ _ a).1, (clamp_range _ _ _ a).2, (clamp_range _ _ _ b).1, (clamp_range _ _ _ b).2⟩
    · exact ⟨(clamp_range _ _ _ a).1, (clamp_range _ _ _ a).2, (clamp_range _ _ _ b).1, (clamp_range _ _ _ b).2⟩

example : Robot.Step { x := 409, z := 80, loops := 1 } (.act (.move 410 85)) { x := 409, z := 80, loops := 1, sent := [.move 410 85] } := by
  have h1 : walk 409 80 false 7 5 = (410, 85) := by simp only [walk, clamp]; grind
  have := Robot.Step.move { x := 409, z := 80, loops := 1 } false 7 5 (by decide) (by decide) (by decide)
  simp only [h1] at this
  exact this

/-- **C122** (steps): told a position in the world, the robot walks at most nine in each direction, and never forth in one and back in the other. -/
theorem C122_steps {s t : Robot.State} {x z : Rat} (hx : 85 ≤ s.x ∧ s.x ≤ 410) (hz : 75 ≤ s.z ∧ s.z ≤ 400) (h : Robot.Step s (.act (.move x z)) t) :
    (s.x ≤ x ∧ x ≤ s.x + 9 ∧ s.z ≤ z ∧ z ≤ s.z + 9) ∨ (x ≤ s.x ∧ s.x ≤ x + 9 ∧ z ≤ s.z ∧ s.z ≤ z + 9) := by
  cases h with
  | move back i j hi hj hl =>
    have hi' : (i : Rat) ≤ 9 := by exact_mod_cast Nat.le_of_lt_succ hi
    have hj' : (j : Rat) ≤ 9 := by exact_mod_cast Nat.le_of_lt_succ hj
    have hi0 : (0 : Rat) ≤ i := by exact_mod_cast Nat.zero_le i
    have hj0 : (0 : Rat) ≤ j := by exact_mod_cast Nat.zero_le j
    unfold walk clamp
    cases back
    · left; simp only [Bool.false_eq_true, if_false]; grind
    · right; simp only [if_true]; grind

/-- **C122** (steps): nine are possible, both ways, and none need be made. -/
theorem C122_steps_sharp {s : Robot.State} (hx : 94 ≤ s.x ∧ s.x ≤ 401) (hz : 84 ≤ s.z ∧ s.z ≤ 391) (hl : 0 < s.loops) :
    (∃ t, Robot.Step s (.act (.move (s.x + 9) (s.z + 9))) t) ∧ (∃ t, Robot.Step s (.act (.move (s.x - 9) (s.z - 9))) t) ∧ ∃ t, Robot.Step s (.act (.move s.x s.z)) t := by
  have key : ∀ (b : Bool) (i : Nat), i < 10 → ∀ x z, walk s.x s.z b i i = (x, z) → ∃ t, Robot.Step s (.act (.move x z)) t := by
    intro b i hi x z hw
    have := Robot.Step.move s b i i hi hi hl
    rw [hw] at this
    exact ⟨_, this⟩
  refine ⟨key false 9 (by decide) _ _ ?_, key true 9 (by decide) _ _ ?_, key false 0 (by decide) _ _ ?_⟩ <;> simp only [walk, clamp, Bool.false_eq_true, if_false, if_true] <;> grind

example : ∃ t, Robot.Step { x := 160, z := 134, loops := 1 } (.act (.move 151 125)) t := by
  have := (C122_steps_sharp (s := { x := 160, z := 134, loops := 1 }) (by decide) (by decide) (by decide)).2.1
  have e1 : (160 : Rat) - 9 = 151 := by grind
  have e2 : (134 : Rat) - 9 = 125 := by grind
  rw [← e1, ← e2]; exact this

/-! ## The end -/

/-- **C122** (loops): one for each time the robot was told its own position before `Start` returned. -/
theorem C122_loops {ls : List Robot.Label} {s : Robot.State} (h : Steps Robot.Step {} ls s) : s.loops = ls.count .online := by
  refine h.invariant_trace (P := fun ls s => s.loops = ls.count .online) ?_ rfl
  intro ls s l t hp hs
  rw [List.count_append, ← hp]
  cases hs <;> simp
  rename_i m rest h1 h2 h3
  cases m <;> simp only [Robot.State.doMsg]
  split <;> rfl

theorem doMsg_keep (s : Robot.State) (m : In) : (s.doMsg m).caller = s.caller ∧ (s.doMsg m).now = s.now ∧ (s.doMsg m).loops = s.loops ∧ (s.doMsg m).closed = s.closed ∧ (s.doMsg m).gone = s.gone ∧ (s.doMsg m).inbox = s.inbox := by
  cases m <;> simp only [Robot.State.doMsg] <;> (try split) <;> simp

/-- As long as the robot is not told its position, the timer runs on. -/
theorem robot_timer {n0 n : Nat} {ls : List Robot.Label} {s t : Robot.State} (h : Steps Robot.Step s ls t) (hno : Robot.Label.online ∉ ls) (h0 : s.caller = .select n0) (h1 : s.now = n) :
    t.now = n + ls.count .tick ∧ (t.caller = .select n0 ∨ t.caller = .returned) := by
  have := h.invariant_trace (P := fun ls t => .online ∉ ls → t.now = n + ls.count .tick ∧ (t.caller = .select n0 ∨ t.caller = .returned)) ?_ (fun _ => ⟨by simpa using h1, .inl h0⟩)
  · exact this hno
  · intro ls s l t hp hs hno
    obtain ⟨h1, h2⟩ := hp (fun h => hno (List.mem_append_left _ h))
    rw [List.count_append]
    have hl : l ≠ .online := fun h => hno (by simp [h])
    cases hs with
    | read m rest a b c =>
      have := doMsg_keep { s with inbox := rest } m
      rw [this.1, this.2.1]
      exact ⟨by simpa using h1, h2⟩
    | online => exact absurd rfl hl
    | tick => exact ⟨by simp; omega, h2⟩
    | timeout => exact ⟨by simpa using h1, .inr rfl⟩
    | _ => exact ⟨by simpa using h1, h2⟩

/-- **C122** (not before time): `Start` returns no earlier than ten seconds after it began, and no earlier than ten seconds after the robot was told its position last. -/
theorem C122_not_early {s t : Robot.State} {ls : List Robot.Label} (hno : Robot.Label.online ∉ ls) :
    (Steps Robot.Step {} (ls ++ [.timeout]) t → 10 ≤ ls.count .tick) ∧ (Steps Robot.Step s (.online :: ls ++ [.timeout]) t → 10 ≤ ls.count .tick) := by
  have key : ∀ {s t : Robot.State} {n : Nat}, s.caller = .select n → s.now = n → Steps Robot.Step s (ls ++ [.timeout]) t → 10 ≤ ls.count .tick := by
    intro s t n h0 h1 h
    obtain ⟨u, h2, h3⟩ := h.unsnoc
    have := robot_timer h2 hno h0 h1
    cases h3 with
    | timeout k hc ht =>
      rcases this.2 with h4 | h4
      · rw [h4] at hc; cases hc; omega
      · rw [h4] at hc; cases hc
  refine ⟨fun h => key rfl rfl h, fun h => ?_⟩
  cases h with
  | cons h1 h2 =>
    cases h1 with
    | online => exact key rfl rfl h2

theorem now_mono {s t : Robot.State} {l : Robot.Label} (hs : Robot.Step s l t) : s.now ≤ t.now := by
  cases hs with
  | read m rest a b c => rw [(doMsg_keep { s with inbox := rest } m).2.1]; exact Nat.le_refl _
  | tick => exact Nat.le_succ _
  | _ => exact Nat.le_refl _

/-- Time goes on. -/
theorem robot_time {e : Exec Robot.Step} (hf : e.WeakFair (· = .tick)) (n : Nat) : ∀ k, ∃ m, n ≤ m ∧ k ≤ (e.run m).now
  | 0 => ⟨n, Nat.le_refl n, Nat.zero_le _⟩
  | k + 1 => by
    obtain ⟨m, hm, hk⟩ := robot_time hf n k
    obtain ⟨m2, l, hm2, ha, rfl⟩ := hf m (fun j _ => ⟨.tick, _, rfl, .tick _⟩)
    have h1 := e.invariant (P := fun s => k ≤ s.now) (fun s l t h hs => Nat.le_trans h (now_mono hs)) hk m2 hm2
    have h2 := e.next m2
    rw [ha] at h2
    refine ⟨m2 + 1, by omega, ?_⟩
    generalize e.run (m2 + 1) = t at h2 ⊢
    cases h2
    show k + 1 ≤ _ + 1
    omega

/-- **C122** (in time): `Start` returns unless the robot is told its position again and again. -/
theorem C122_returns {e : Exec Robot.Step} (ht : e.WeakFair (· = .tick)) (hf : e.WeakFair (· = .timeout)) : (∃ m, (e.run m).caller = .returned) ∨ ∀ n, ∃ m, n ≤ m ∧ e.act m = some .online := by
  rcases Classical.em (∃ m, (e.run m).caller = .returned) with h | hr
  · exact .inl h
  right
  intro n
  apply Classical.byContradiction
  intro hno
  have hsel : ∃ k, (e.run n).caller = .select k := by
    cases h : (e.run n).caller with
    | select k => exact ⟨k, rfl⟩
    | returned => exact absurd ⟨n, h⟩ hr
  obtain ⟨k, hk⟩ := hsel
  have hc : ∀ m, n ≤ m → (e.run m).caller = .select k := by
    intro m hm
    induction m with
    | zero => rwa [show n = 0 by omega] at hk
    | succ m ih =>
      by_cases e1 : n = m + 1
      · rwa [e1] at hk
      · have h1 := ih (by omega)
        have h2 := e.next m
        have h3 : e.act m ≠ some .online := fun h => hno ⟨m, by omega, h⟩
        have h4 : (e.run (m + 1)).caller ≠ .returned := fun h => hr ⟨_, h⟩
        cases ha : e.act m with
        | none => rw [ha] at h2; rw [h2]; exact h1
        | some l =>
          rw [ha] at h2 h3
          generalize e.run (m + 1) = t at h2 h4 ⊢
          generalize e.run m = s at h2 h1
          cases h2 with
          | read m rest a b c => rw [(doMsg_keep { s with inbox := rest } m).1]; exact h1
          | online => exact absurd rfl h3
          | timeout => exact absurd rfl h4
          | _ => exact h1
  obtain ⟨m, hm, hmk⟩ := robot_time ht n (k + 10)
  have hn := e.invariant (P := fun s => k + 10 ≤ s.now) (fun s l t h hs => Nat.le_trans h (now_mono hs)) hmk
  obtain ⟨m2, l, hm2, ha, rfl⟩ := hf m (fun j hj => ⟨.timeout, _, rfl, .timeout _ k (hc j (by omega)) (hn j hj)⟩)
  have h2 := e.next m2
  rw [ha] at h2
  refine hr ⟨m2 + 1, ?_⟩
  generalize e.run (m2 + 1) = t at h2 ⊢
  cases h2
  rfl

/-- **C122** (the server goes): after the server has closed the connection nothing comes from it, and nothing the robot writes gets to it. -/
theorem C122_lost {ks ls : List Robot.Label} {s : Robot.State} (h : Steps Robot.Step {} (ks ++ .lose :: ls) s) :
    (∀ m, Robot.Label.arrive m ∉ ls) ∧ ∃ u v, Steps Robot.Step {} ks u ∧ Robot.Step u .lose v ∧ Steps Robot.Step v ls s ∧ s.sent = u.sent := by
  obtain ⟨u, h1, h2⟩ := h.split
  cases h2 with
  | @cons _ v _ _ _ h2 h3 =>
    have hv : v.gone = true ∧ v.sent = u.sent := by cases h2; exact ⟨rfl, rfl⟩
    have key : ∀ {v : Robot.State} {ls : List Robot.Label} {s : Robot.State}, Steps Robot.Step v ls s → v.gone = true → (∀ m, Robot.Label.arrive m ∉ ls) ∧ s.sent = v.sent := by
      intro v ls s h
      induction h with
      | nil => exact fun _ => ⟨fun _ h => (nomatch h), rfl⟩
      | @cons s t u l ls hs _ ih =>
        intro hg
        have ht : t.gone = true ∧ t.sent = s.sent ∧ ∀ m, l ≠ .arrive m := by
          cases hs with
          | arrive m h => exact nomatch h.symm.trans hg
          | read m rest a b c =>
            have := doMsg_keep { s with inbox := rest } m
            refine ⟨this.2.2.2.2.1.trans hg, ?_, fun m h => nomatch h⟩
            cases m <;> simp only [Robot.State.doMsg] <;> (try split) <;> rfl
          | talk h => exact ⟨hg, by simp [hg], fun m h => nomatch h⟩
          | move back i j hi hj hl => exact ⟨hg, by simp [hg], fun m h => nomatch h⟩
          | lose => exact ⟨rfl, rfl, fun m h => nomatch h⟩
          | _ => exact ⟨hg, rfl, fun m h => nomatch h⟩
        obtain ⟨h1, h2⟩ := ih ht.1
        exact ⟨fun m hm => (List.mem_cons.1 hm).elim (fun h => ht.2.2 m h.symm) (h1 m), h2.trans ht.2.1⟩
    have := key h3 hv.1
    exact ⟨this.1, u, v, h1, h2, h3, this.2.trans hv.2⟩

example : ∃ s, Steps Robot.Step {} ([.arrive .other] ++ .lose :: [.read, .readEnd]) s :=
  ⟨_, .cons (.arrive _ _ rfl) (.cons (.lose _) (.cons (.read _ .other [] rfl rfl rfl) (.cons (.readEnd _ rfl (.inr ⟨rfl, rfl⟩)) (.nil _))))⟩

theorem returned_keep {s t : Robot.State} {l : Robot.Label} (hs : Robot.Step s l t) (h : s.caller = .returned) : t.caller = .returned ∧ s.loops = t.loops := by
  cases hs with
  | read m rest a b c =>
    have := doMsg_keep { s with inbox := rest } m
    rw [this.1, this.2.2.1]; exact ⟨h, rfl⟩
  | online n a b => rw [h] at b; cases b
  | timeout n a b => rw [h] at a; cases a
  | _ => exact ⟨h, rfl⟩

/-- The connection is closed when `Start` returns. -/
theorem robot_closed {s : Robot.State} {ls : List Robot.Label} (h : Steps Robot.Step {} ls s) (hr : s.caller = .returned) : s.closed = true := by
  refine h.invariant (P := fun s => s.caller = .returned → s.closed = true) ?_ (fun h => nomatch h) hr
  intro s l t hp hs
  cases hs with
  | read m rest a b c => rw [(doMsg_keep { s with inbox := rest } m).1, (doMsg_keep { s with inbox := rest } m).2.2.2.1]; exact hp
  | online => exact fun h => nomatch h
  | timeout => exact fun _ => rfl
  | _ => exact hp

/-- **C122** (what becomes of the reader): once `Start` has returned the reader ends, unless it is just telling `Start` of a position: then it waits for ever. -/
theorem C122_exact_reader {e : Exec Robot.Step} (hf : e.WeakFair (· = .readEnd)) (h0 : e.run 0 = {}) {n : Nat} (hn : (e.run n).caller = .returned) :
    (∃ m, n ≤ m ∧ (e.run m).reader = .ended) ↔ (e.run n).reader ≠ .telling := by
  have hc : (e.run n).closed = true := robot_closed (h0 ▸ e.steps n) hn
  constructor
  · rintro ⟨m, hm, h⟩ ht
    have := e.invariant (P := fun s => s.reader = .telling ∧ s.caller = .returned) (fun s l t h hs => by
      obtain ⟨h1, h2⟩ := h
      cases hs with
      | read _ _ a => rw [h1] at a; cases a
      | online _ _ a => rw [h2] at a; cases a
      | timeout _ a => rw [h2] at a; cases a
      | readEnd a => rw [h1] at a; cases a
      | _ => exact ⟨h1, h2⟩) ⟨ht, hn⟩ m hm
    rw [this.1] at h; cases h
  · intro ht
    cases hr : (e.run n).reader with
    | telling => exact absurd hr ht
    | ended => exact ⟨n, Nat.le_refl n, hr⟩
    | reading =>
      refine e.leads_weak hf (P := fun s => s.reader = .reading ∧ s.closed = true) (Q := fun s => s.reader = .ended) ?_ ?_ ?_ ⟨hr, hc⟩
      · rintro s l t ⟨h1, h2⟩ hs
        cases hs with
        | read _ _ _ a => rw [h2] at a; cases a
        | online _ a => rw [h1] at a; cases a
        | timeout => exact .inl ⟨h1, rfl⟩
        | readEnd => exact .inr rfl
        | _ => exact .inl ⟨h1, h2⟩
      · rintro s l t _ hs rfl
        cases hs; rfl
      · rintro s ⟨h1, h2⟩
        exact ⟨.readEnd, _, rfl, .readEnd s h1 (.inl h2)⟩

/-- **C122** (the loops go on for ever): after `Start` has returned the loops that were started go on, in every execution, and write to a closed connection again and again. -/
theorem C122_loops_forever {e : Exec Robot.Step} (hf : e.WeakFair fun l => ∃ o, l = .act o) (h0 : e.run 0 = {}) {n : Nat} (hl : 0 < (e.run n).loops) (hn : (e.run n).caller = .returned) :
    (∀ m, n ≤ m → (e.run m).loops = (e.run n).loops ∧ (e.run m).closed = true) ∧ ∀ k, ∃ m o, k ≤ m ∧ e.act m = some (.act o) := by
  have h1 : ∀ m, n ≤ m → (e.run m).caller = .returned ∧ (e.run m).loops = (e.run n).loops :=
    e.invariant (P := fun s => s.caller = .returned ∧ s.loops = (e.run n).loops) (fun s l t h hs => by
      have := returned_keep hs h.1
      exact ⟨this.1, by rw [← this.2]; exact h.2⟩) ⟨hn, rfl⟩
  refine ⟨fun m hm => ⟨(h1 m hm).2, robot_closed (h0 ▸ e.steps m) (h1 m hm).1⟩, fun k => ?_⟩
  obtain ⟨m, l, hm, ha, o, rfl⟩ := hf (n + k) (fun j hj => ⟨_, _, ⟨_, rfl⟩, .talk _ (by rw [(h1 j (by omega)).2]; exact hl)⟩)
  exact ⟨m, o, by omega, ha⟩

theorem robot_ticks : ∀ (k : Nat) (s : Robot.State), Steps Robot.Step s (List.replicate k .tick) { s with now := s.now + k }
  | 0, s => .nil s
  | k + 1, s => by
    have := robot_ticks k { s with now := s.now + 1 }
    rw [List.replicate_succ]
    refine .cons (.tick s) ?_
    have e : s.now + (k + 1) = s.now + 1 + k := by omega
    rw [e]; exact this

/-- A robot that is told nothing: ten seconds, then the end of `Start`; time goes on. -/
def lonely : Exec Robot.Step where
  run n := if n ≤ 10 then { now := n } else { now := n - 1, caller := .returned, closed := true }
  act n := if n = 10 then some .timeout else some .tick
  next n := by
    rcases Nat.lt_trichotomy n 10 with h | h | h
    · rw [if_neg (by omega), if_pos (by omega), if_pos (by omega)]; exact .tick { now := n }
    · subst h; exact .timeout { now := 10 } 0 rfl (by decide)
    · rw [if_neg (by omega), if_neg (by omega), if_neg (by omega)]
      have := Robot.Step.tick { now := n - 1, caller := .returned, closed := true }
      have e : n + 1 - 1 = n - 1 + 1 := by omega
      rw [e]; exact this

example : lonely.WeakFair (· = .tick) ∧ lonely.WeakFair (· = .timeout) ∧ ¬ (∀ n, ∃ m, n ≤ m ∧ lonely.act m = some .online) := by
  refine ⟨fun n _ => ⟨n + 11, .tick, by omega, by simp [lonely], rfl⟩, fun n h => ?_, fun h => ?_⟩
  · obtain ⟨l, t, rfl, hs⟩ := h (n + 11) (by omega)
    cases hs with
    | timeout k hc ht => rw [show (lonely.run (n + 11)).caller = .returned by simp [lonely]] at hc; cases hc
  · obtain ⟨m, _, hm⟩ := h 0
    simp only [lonely] at hm
    split at hm <;> simp at hm

/-- What the server sends when a player has come (server.go:30-46): the number, the position from `BroadCastStartPosition`, and the position again from `SyncSurrounding`, which goes to all players around, the new one included. -/
def welcome : List Robot.Label := [.arrive (.pid 7), .arrive (.place 7 160 134), .arrive (.place 7 160 134)]

/-- The robot has been told twice. -/
theorem robot_run : Steps Robot.Step {} (welcome ++ [.read, .read, .online, .read, .online]) { pid := 7, x := 160, z := 134, loops := 2 } := by
  refine .cons (t := { inbox := [.pid 7] }) (.arrive _ _ rfl) ?_
  refine .cons (t := { inbox := [.pid 7, .place 7 160 134] }) (.arrive _ _ rfl) ?_
  refine .cons (t := { inbox := [.pid 7, .place 7 160 134, .place 7 160 134] }) (.arrive _ _ rfl) ?_
  refine .cons (t := { inbox := [.place 7 160 134, .place 7 160 134], pid := 7 }) (.read _ (.pid 7) [.place 7 160 134, .place 7 160 134] rfl rfl rfl) ?_
  refine .cons (t := { inbox := [.place 7 160 134], pid := 7, x := 160, z := 134, reader := .telling }) (.read _ (.place 7 160 134) [.place 7 160 134] rfl rfl rfl) ?_
  refine .cons (t := { inbox := [.place 7 160 134], pid := 7, x := 160, z := 134, loops := 1 }) (.online _ 0 rfl rfl) ?_
  refine .cons (t := { pid := 7, x := 160, z := 134, loops := 1, reader := .telling }) (.read _ (.place 7 160 134) [] rfl rfl rfl) ?_
  exact .cons (.online _ 0 rfl rfl) (.nil _)

/-- **C122** is false of the code (loops): a robot that is welcomed by the demo server starts two loops, and they are still there when `Start` has returned and the reader has ended. -/
theorem C122_loops_refuted : ∃ ls t, Steps Robot.Step {} (welcome ++ ls) t ∧ (∀ m, Robot.Label.arrive m ∉ ls) ∧ t.caller = .returned ∧ t.reader = .ended ∧ t.loops = 2 := by
  refine ⟨[.read, .read, .online, .read, .online] ++ List.replicate 10 .tick ++ [.timeout, .readEnd], { pid := 7, x := 160, z := 134, loops := 2, now := 10, caller := .returned, closed := true, reader := .ended }, ?_, ?_, rfl, rfl, rfl⟩
  · rw [← List.append_assoc, ← List.append_assoc]
    refine (robot_run.append (robot_ticks 10 _)).append ?_
    refine .cons (t := { pid := 7, x := 160, z := 134, loops := 2, now := 10, caller := .returned, closed := true }) (.timeout _ 0 rfl (by decide)) ?_
    exact .cons (.readEnd _ rfl (.inl rfl)) (.nil _)
  · intro m; simp

theorem steps_all {S L : Type} {step : S → L → S → Prop} {s t : S} {ls : List L} (h : Steps step s ls t) : StepsAll step (fun _ => True) s ls t := by
  induction h with
  | nil => exact .nil trivial
  | cons h _ ih => exact .cons trivial h ih

/-- The hypotheses of `C122_loops_forever` and `C122_exact_reader` are met by the execution in which the robot ends and its loops go on. -/
example : ∃ e : Exec Robot.Step, e.run 0 = {} ∧ e.WeakFair (fun l => ∃ o, l = .act o) ∧ e.WeakFair (· = .readEnd) ∧ ∃ n, 0 < (e.run n).loops ∧ (e.run n).caller = .returned := by
  have h1 : Steps Robot.Step {} (welcome ++ [.read, .read, .online, .read, .online] ++ List.replicate 10 .tick ++ [.timeout, .readEnd]) { pid := 7, x := 160, z := 134, loops := 2, now := 10, caller := .returned, closed := true, reader := .ended } := by
    refine (robot_run.append (robot_ticks 10 _)).append ?_
    refine .cons (t := { pid := 7, x := 160, z := 134, loops := 2, now := 10, caller := .returned, closed := true }) (.timeout _ 0 rfl (by decide)) ?_
    exact .cons (.readEnd _ rfl (.inl rfl)) (.nil _)
  have h2 : StepsAll Robot.Step (fun s => s.reader = .ended) { pid := 7, x := 160, z := 134, loops := 2, now := 10, caller := .returned, closed := true, reader := .ended } [.act (.talk 7)] { pid := 7, x := 160, z := 134, loops := 2, now := 10, caller := .returned, closed := true, reader := .ended } :=
    .cons rfl (.talk _ (by decide)) (.nil rfl)
  obtain ⟨e, e1, _, _, e4, e5, e6, _⟩ := Exec.ofLasso (steps_all h1) h2 (by simp) (fun _ _ => trivial)
  obtain ⟨m, _, hm⟩ := e6 0
  have hE : ∀ {s : Robot.State}, s.reader = .ended → ¬ Enabled Robot.Step (· = .readEnd) s := by
    rintro s h ⟨l, t, rfl, hs⟩
    cases hs with
    | readEnd a => rw [h] at a; cases a
  refine ⟨e, e1, Exec.weakFair_of_often (e5 (.act (.talk 7)) (by simp)) ⟨_, rfl⟩, Exec.weakFair_of_never (fun n hn => hE (e4 n hn)), m, by rw [hm]; decide, by rw [hm]⟩

/-- **C122** is false of the code (reader): the robot is told its position once more when the timer has just gone off; the reader waits for ever, in every continuation. -/
theorem C122_reader_refuted : ∃ ls t, Steps Robot.Step {} ls t ∧ t.caller = .returned ∧ t.closed = true ∧ ∀ ks u, Steps Robot.Step t ks u → u.reader = .telling := by
  refine ⟨welcome ++ [.read, .read, .online, .read, .online] ++ List.replicate 10 .tick ++ [.arrive (.place 7 200 134), .read, .timeout], { pid := 7, x := 200, z := 134, loops := 2, now := 10, caller := .returned, closed := true, reader := .telling }, ?_, rfl, rfl, ?_⟩
  · refine (robot_run.append (robot_ticks 10 _)).append ?_
    refine .cons (t := { inbox := [.place 7 200 134], pid := 7, x := 160, z := 134, loops := 2, now := 10 }) (.arrive _ _ rfl) ?_
    refine .cons (t := { pid := 7, x := 200, z := 134, loops := 2, now := 10, reader := .telling }) (.read _ (.place 7 200 134) [] rfl rfl rfl) ?_
    exact .cons (.timeout _ 0 rfl (by decide)) (.nil _)
  · intro ks u h
    refine (h.invariant (P := fun s => s.reader = .telling ∧ s.caller = .returned) (fun s l t h hs => ?_) ⟨rfl, rfl⟩).1
    obtain ⟨h1, h2⟩ := h
    cases hs with
    | read _ _ a => rw [h1] at a; cases a
    | online _ _ a => rw [h2] at a; cases a
    | timeout _ a => rw [h2] at a; cases a
    | readEnd a => rw [h1] at a; cases a
    | _ => exact ⟨h1, h2⟩

end Zinx.Props
