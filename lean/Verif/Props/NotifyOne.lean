import Verif.Model.NotifyOne
import Verif.Lemmas.ExecOf

/-! # C151: a message to an ID goes to the connection that has it -/

namespace Zinx.Props

open Zinx

/-- The connection that is registered as `id`. -/
def holderOf (id : Nat) (ls : List NotifyOne.Label) : Option Nat :=
  ls.foldl (fun r l => match l with | .set id' c => if id' = id then some c else r | .del id' => if id' = id then none else r | _ => r) none

/-- The sends of a call: ID, connection, success. -/
def sendsBy (x : NotifyOne.Call) (ls : List NotifyOne.Label) : List (Nat × Nat × Bool) := ls.filterMap fun | .send y id c ok => if y = x then some (id, c, ok) else none | _ => none

/-- At some moment after call `x` for `id` began, `id` was registered as `r` says. -/
def Held (x : NotifyOne.Call) (id : Nat) (r : Option Nat) (ls : List NotifyOne.Label) : Prop := ∃ l1 l2, ls = l1 ++ l2 ∧ .start x id ∈ l1 ∧ holderOf id l1 = r

theorem holderOf_snoc (id : Nat) (ls : List NotifyOne.Label) (l : NotifyOne.Label) :
    holderOf id (ls ++ [l]) = (match l with | .set id' c => if id' = id then some c else holderOf id ls | .del id' => if id' = id then none else holderOf id ls | _ => holderOf id ls) := by
  unfold holderOf
  rw [List.foldl_append]
  rfl

theorem sendsBy_snoc (x : NotifyOne.Call) (ls : List NotifyOne.Label) (l : NotifyOne.Label) :
    sendsBy x (ls ++ [l]) = sendsBy x ls ++ (match l with | .send y id c ok => if y = x then [(id, c, ok)] else [] | _ => []) := by
  unfold sendsBy
  rw [List.filterMap_append]
  cases l <;> simp [List.filterMap_cons]
  split <;> simp_all

theorem Held.snoc {x : NotifyOne.Call} {id : Nat} {r : Option Nat} {ls : List NotifyOne.Label} (h : Held x id r ls) (l : NotifyOne.Label) : Held x id r (ls ++ [l]) := by
  obtain ⟨l1, l2, rfl, h⟩ := h
  exact ⟨l1, l2 ++ [l], by simp, h⟩

/-- What is known of a call that has come so far. -/
def Known (ls : List NotifyOne.Label) : NotifyOne.Job → Prop
  | .idle => True
  | .look x id => .start x id ∈ ls ∧ sendsBy x ls = []
  | .send x id c => Held x id (some c) ls ∧ sendsBy x ls = []
  | .back x id .unknown => Held x id none ls ∧ sendsBy x ls = []
  | .back x id .sent => ∃ c, Held x id (some c) ls ∧ sendsBy x ls = [(id, c, true)]
  | .back x id .failed => ∃ c, Held x id (some c) ls ∧ sendsBy x ls = [(id, c, false)] ∧ .close c ∈ ls

/-- The call a goroutine is making. -/
def oneCall : NotifyOne.Job → Option NotifyOne.Call
  | .idle => none
  | .look x _ => some x
  | .send x _ _ => some x
  | .back x _ _ => some x

theorem Known.snoc {ls : List NotifyOne.Label} {j : NotifyOne.Job} (h : Known ls j) (l : NotifyOne.Label) (hl : ∀ x id c ok, oneCall j = some x → l ≠ .send x id c ok) : Known (ls ++ [l]) j := by
  have e : ∀ x, oneCall j = some x → sendsBy x (ls ++ [l]) = sendsBy x ls := by
    intro x hx
    rw [sendsBy_snoc]
    cases l with
    | send y id c ok =>
      have : y ≠ x := fun e => hl x id c ok hx (by rw [e])
      simp [this]
    | _ => simp
  cases j with
  | idle => trivial
  | look x id => exact ⟨by simp [h.1], by rw [e x rfl]; exact h.2⟩
  | send x id c => exact ⟨h.1.snoc l, by rw [e x rfl]; exact h.2⟩
  | back x id r =>
    cases r with
    | unknown => exact ⟨h.1.snoc l, by rw [e x rfl]; exact h.2⟩
    | sent => obtain ⟨c, h1, h2⟩ := h; exact ⟨c, h1.snoc l, by rw [e x rfl]; exact h2⟩
    | failed => obtain ⟨c, h1, h2, h3⟩ := h; exact ⟨c, h1.snoc l, by rw [e x rfl]; exact h2, by simp [h3]⟩

structure OneInv (ls : List NotifyOne.Label) (s : NotifyOne.State) : Prop where
  reg : ∀ id, s.tab id = holderOf id ls
  shut : ∀ c, s.closed c = true ↔ .close c ∈ ls
  own : ∀ g x, oneCall (s.job g) = some x → x.who = g ∧ x.n + 1 = s.made g
  know : ∀ g, Known ls (s.job g)
  new : ∀ x, s.made x.who ≤ x.n → sendsBy x ls = [] ∧ ∀ id, .start x id ∉ ls
  ended : ∀ x id r, .ret x id r ∈ ls → Known ls (.back x id r) ∧ x.n < s.made x.who ∧ oneCall (s.job x.who) ≠ some x
  over : ∀ x id, .start x id ∈ ls → oneCall (s.job x.who) = some x ∨ ∃ id' r, .ret x id' r ∈ ls
  len : ∀ x, (sendsBy x ls).length ≤ 1

theorem one_init : OneInv [] {} := by
  refine ⟨?_, ?_, ?_, ?_, ?_, ?_, ?_, ?_⟩ <;> simp [holderOf, sendsBy, oneCall, Known]

/-- An action that changes no goroutine. -/
theorem one_quiet {ls : List NotifyOne.Label} {s t : NotifyOne.State} {l : NotifyOne.Label} (hi : OneInv ls s) (hj : t.job = s.job) (hm : t.made = s.made) (hr : ∀ id, t.tab id = holderOf id (ls ++ [l]))
    (hc : ∀ c, t.closed c = true ↔ .close c ∈ ls ++ [l]) (h1 : ∀ x id, l ≠ .start x id) (h2 : ∀ x id c ok, l ≠ .send x id c ok) (h3 : ∀ x id r, l ≠ .ret x id r) : OneInv (ls ++ [l]) t := by
  have hs : ∀ x, sendsBy x (ls ++ [l]) = sendsBy x ls := by
    intro x
    rw [sendsBy_snoc]
    cases l with
    | send y id c ok => exact absurd rfl (h2 y id c ok)
    | _ => simp
  have m1 : ∀ x id, .start x id ∈ ls ++ [l] ↔ .start x id ∈ ls := fun x id => by simp [(h1 x id).symm]
  have m3 : ∀ x id r, .ret x id r ∈ ls ++ [l] ↔ .ret x id r ∈ ls := fun x id r => by simp [(h3 x id r).symm]
  refine ⟨hr, hc, by rw [hj, hm]; exact hi.own, ?_, ?_, ?_, ?_, ?_⟩
  · rw [hj]; exact fun g => (hi.know g).snoc l fun x id c ok _ => h2 x id c ok
  · simp only [hm, hs, m1]; exact hi.new
  · intro x id r h
    rw [hj, hm]
    have := hi.ended x id r ((m3 x id r).mp h)
    exact ⟨this.1.snoc l fun x id c ok _ => h2 x id c ok, this.2⟩
  · simp only [hj, m1, m3]; exact hi.over
  · simp only [hs]; exact hi.len

/-- An action of the goroutine of call `x`. -/
theorem one_moves {ls : List NotifyOne.Label} {s : NotifyOne.State} {l : NotifyOne.Label} {x : NotifyOne.Call} {g : Nat} {j : NotifyOne.Job} (hi : OneInv ls s) (hx : oneCall (s.job g) = some x)
    (hr : ∀ id, holderOf id (ls ++ [l]) = holderOf id ls) (hc : ∀ c, l ≠ .close c) (h1 : ∀ y id, l ≠ .start y id) (h2 : ∀ y id c ok, l = .send y id c ok → y = x) (hk : Known (ls ++ [l]) j)
    (hj : oneCall j = some x ∧ (∀ y id r, l ≠ .ret y id r) ∨ j = .idle ∧ ∃ id r, l = .ret x id r ∧ s.job g = .back x id r) (hl : (sendsBy x (ls ++ [l])).length ≤ 1) :
    OneInv (ls ++ [l]) { s with job := NotifyOne.upd s.job g j } := by
  obtain ⟨rfl, hn⟩ := hi.own g x hx
  have hs : ∀ y, y ≠ x → sendsBy y (ls ++ [l]) = sendsBy y ls := by
    intro y hy
    rw [sendsBy_snoc]
    cases l with
    | send z id c ok =>
      have := h2 z id c ok rfl
      subst this
      simp [hy.symm]
    | _ => simp
  have m1 : ∀ y id, .start y id ∈ ls ++ [l] ↔ .start y id ∈ ls := fun y id => by simp [(h1 y id).symm]
  refine ⟨fun id => by rw [hr]; exact hi.reg id, fun c => by simp [(hc c).symm, hi.shut c], ?_, ?_, ?_, ?_, ?_, ?_⟩
  · intro g y hy
    dsimp only [NotifyOne.upd] at hy ⊢
    split at hy
    · rename_i e
      subst e
      rcases hj with ⟨hj, _⟩ | ⟨hj, _⟩
      · rw [hj] at hy; cases hy; exact ⟨rfl, hn⟩
      · rw [hj] at hy; cases hy
    · exact hi.own g y hy
  · intro g
    dsimp only [NotifyOne.upd]
    split
    · exact hk
    · rename_i e
      refine (hi.know g).snoc l fun y id c ok hy hl => ?_
      have := h2 y id c ok hl
      subst this
      exact e (hi.own g y hy).1.symm
  · intro y hy
    dsimp only at hy
    have hne : y ≠ x := by rintro rfl; omega
    rw [hs y hne]
    exact ⟨(hi.new y hy).1, fun id => by rw [m1]; exact (hi.new y hy).2 id⟩
  · intro y id r hy
    dsimp only [NotifyOne.upd]
    rw [List.mem_append] at hy
    rcases hy with hy | hy
    · obtain ⟨a, b, c⟩ := hi.ended y id r hy
      have hne : y ≠ x := by rintro rfl; exact c hx
      refine ⟨a.snoc l fun z id' c' ok hz hl => ?_, b, ?_⟩
      · have := h2 z id' c' ok hl
        simp [oneCall] at hz
        exact hne (hz.trans this)
      · split
        · rcases hj with ⟨hj, _⟩ | ⟨hj, _⟩
          · rw [hj]; intro h; cases h; exact hne rfl
          · rw [hj]; simp [oneCall]
        · exact c
    · simp at hy
      rcases hj with ⟨_, hj⟩ | ⟨hj, id', r', e, hb⟩
      · exact absurd hy.symm (hj _ _ _)
      · rw [← hy] at e
        cases e
        refine ⟨?_, by omega, by simp [hj, oneCall]⟩
        have := hi.know x.who
        rw [hb] at this
        exact this.snoc l fun z id' c' ok _ hl => by rw [← hy] at hl; cases hl
  · intro y id hy
    dsimp only [NotifyOne.upd]
    rw [m1] at hy
    by_cases e : y = x
    · subst e
      rcases hj with ⟨hj, _⟩ | ⟨hj, id', r', e, hb⟩
      · exact .inl (by simp [hj])
      · exact .inr ⟨id', r', by simp [e]⟩
    · rcases hi.over y id hy with h | ⟨id', r, h⟩
      · split
        · rename_i e'
          rw [e', hx] at h
          cases h
          exact absurd rfl e
        · exact .inl h
      · exact .inr ⟨id', r, by simp [h]⟩
  · intro y
    by_cases e : y = x
    · rw [e]; exact hl
    · rw [hs y e]; exact hi.len y

theorem one_step {ls : List NotifyOne.Label} {s t : NotifyOne.State} {l : NotifyOne.Label} (hi : OneInv ls s) (hs : NotifyOne.Step s l t) : OneInv (ls ++ [l]) t := by
  cases hs with
  | set id c =>
    refine one_quiet hi rfl rfl (fun id' => ?_) (fun c' => by simpa using hi.shut c') (by simp) (by simp) (by simp)
    rw [holderOf_snoc]
    have := hi.reg id'
    dsimp only [NotifyOne.upd]
    grind
  | del id =>
    refine one_quiet hi rfl rfl (fun id' => ?_) (fun c' => by simpa using hi.shut c') (by simp) (by simp) (by simp)
    rw [holderOf_snoc]
    have := hi.reg id'
    dsimp only [NotifyOne.upd]
    grind
  | close c =>
    refine one_quiet hi rfl rfl (fun id' => by rw [holderOf_snoc]; exact hi.reg id') (fun c' => ?_) (by simp) (by simp) (by simp)
    have := hi.shut c'
    simp [NotifyOne.upd]
    grind
  | start g id h =>
    have hs : ∀ y, sendsBy y (ls ++ [.start ⟨g, s.made g⟩ id]) = sendsBy y ls := fun y => by rw [sendsBy_snoc]; simp
    have hno := hi.new ⟨g, s.made g⟩ (Nat.le_refl _)
    refine ⟨fun id' => by rw [holderOf_snoc]; exact hi.reg id', fun c => by simpa using hi.shut c, ?_, ?_, ?_, ?_, ?_, fun y => by rw [hs]; exact hi.len y⟩
    · intro g' y hy
      dsimp only [NotifyOne.upd] at hy ⊢
      split at hy
      · rename_i e; subst e; cases hy; simp
      · rename_i e; simp only [e, if_false]; exact hi.own g' y hy
    · intro g'
      dsimp only [NotifyOne.upd]
      split
      · exact ⟨by simp, by rw [hs]; exact hno.1⟩
      · exact (hi.know g').snoc _ (by simp)
    · intro y hy
      dsimp only [NotifyOne.upd] at hy
      have hle : s.made y.who ≤ y.n := by split at hy <;> grind
      refine ⟨by rw [hs]; exact (hi.new y hle).1, fun id' hm => ?_⟩
      rw [List.mem_append] at hm
      rcases hm with hm | hm
      · exact (hi.new y hle).2 id' hm
      · simp at hm
        rw [hm.1] at hy
        simp at hy
        omega
    · intro y id' r hy
      dsimp only [NotifyOne.upd]
      obtain ⟨a, b, c⟩ := hi.ended y id' r (by simpa using hy)
      refine ⟨a.snoc _ (by simp), by split <;> grind, ?_⟩
      split
      · intro e; cases e; simp at b
      · exact c
    · intro y id' hy
      dsimp only [NotifyOne.upd]
      rw [List.mem_append] at hy
      rcases hy with hy | hy
      · rcases hi.over y id' hy with h' | ⟨id'', r, h'⟩
        · split
          · rename_i e; rw [e, h] at h'; cases h'
          · exact .inl h'
        · exact .inr ⟨id'', r, by simp [h']⟩
      · simp at hy
        rw [hy.1]
        simp [oneCall]
  | found g x id c h hc =>
    have hk := hi.know g
    rw [h] at hk
    have hs : sendsBy x (ls ++ [.get x id]) = [] := by rw [sendsBy_snoc]; simp [hk.2]
    exact one_moves hi (by rw [h]; rfl) (fun _ => by rw [holderOf_snoc]) (by simp) (by simp) (by simp) ⟨⟨ls, [.get x id], rfl, hk.1, by rw [← hi.reg]; exact hc⟩, hs⟩ (.inl ⟨rfl, by simp⟩) (by simp [hs])
  | missed g x id h hc =>
    have hk := hi.know g
    rw [h] at hk
    have hs : sendsBy x (ls ++ [.get x id]) = [] := by rw [sendsBy_snoc]; simp [hk.2]
    exact one_moves hi (by rw [h]; rfl) (fun _ => by rw [holderOf_snoc]) (by simp) (by simp) (by simp) ⟨⟨ls, [.get x id], rfl, hk.1, by rw [← hi.reg]; exact hc⟩, hs⟩ (.inl ⟨rfl, by simp⟩) (by simp [hs])
  | send g x id c h =>
    have hk := hi.know g
    rw [h] at hk
    have hs : sendsBy x (ls ++ [.send x id c (!s.closed c)]) = [(id, c, !s.closed c)] := by rw [sendsBy_snoc]; simp [hk.2]
    refine one_moves hi (by rw [h]; rfl) (fun _ => by rw [holderOf_snoc]) (by simp) (by simp) (fun y id' c' ok e => by injection e with e; exact e.symm) ?_ (.inl ⟨rfl, by simp⟩) (by simp [hs])
    cases hc : s.closed c with
    | false => rw [hc] at hs; exact ⟨c, hk.1.snoc _, hs⟩
    | true => rw [hc] at hs; exact ⟨c, hk.1.snoc _, hs, by simp [(hi.shut c).mp hc]⟩
  | ret g x id r h =>
    have hs : sendsBy x (ls ++ [.ret x id r]) = sendsBy x ls := by rw [sendsBy_snoc]; simp
    exact one_moves hi (by rw [h]; rfl) (fun _ => by rw [holderOf_snoc]) (by simp) (by simp) (by simp) trivial (.inr ⟨rfl, id, r, rfl, h⟩) (by rw [hs]; exact hi.len x)

theorem one_inv {ls : List NotifyOne.Label} {s : NotifyOne.State} (h : Steps NotifyOne.Step {} ls s) : OneInv ls s :=
  h.invariant_trace (P := OneInv) (fun _ _ _ _ hi hs => one_step hi hs) one_init

/-- A call sends to a connection that had the ID at some moment since it was called; it has not returned and has sent nothing before; the send succeeds if and only if the connection is open. -/
theorem C151_holder_partial {ls : List NotifyOne.Label} {s : NotifyOne.State} {x : NotifyOne.Call} {id c : Nat} {ok : Bool} (h : Steps NotifyOne.Step {} (ls ++ [.send x id c ok]) s) :
    (∃ l1 l2, ls = l1 ++ l2 ∧ .start x id ∈ l1 ∧ holderOf id l1 = some c) ∧ (∀ id' r, .ret x id' r ∉ ls) ∧ sendsBy x ls = [] ∧ (ok = true ↔ .close c ∉ ls) := by
  obtain ⟨t, h1, hs⟩ := h.unsnoc
  have hi := one_inv h1
  cases hs with
  | send g x id c hj =>
    have hk := hi.know g
    rw [hj] at hk
    have hw := (hi.own g x (by rw [hj]; rfl)).1
    refine ⟨hk.1, fun id' r hr => (hi.ended x id' r hr).2.2 (by rw [hw, hj]; rfl), hk.2, ?_⟩
    rw [← hi.shut c]
    simp

/-- The result of a call: `nil` after one successful send and an error after one that failed, to a connection that had the ID during the call; or nothing was sent, and nobody had the ID at some moment during the call. -/
theorem C151_result {ls : List NotifyOne.Label} {s : NotifyOne.State} {x : NotifyOne.Call} {id : Nat} {r : NotifyOne.Res} (h : Steps NotifyOne.Step {} ls s) (hr : .ret x id r ∈ ls) :
    match r with
    | .sent => ∃ c, Held x id (some c) ls ∧ sendsBy x ls = [(id, c, true)]
    | .failed => ∃ c, Held x id (some c) ls ∧ sendsBy x ls = [(id, c, false)] ∧ .close c ∈ ls
    | .unknown => Held x id none ls ∧ sendsBy x ls = [] := by
  have := ((one_inv h).ended x id r hr).1
  cases r <;> exact this

theorem start_unique {ls : List NotifyOne.Label} {s : NotifyOne.State} {x : NotifyOne.Call} {id id' : Nat} {a b : List NotifyOne.Label} (h : Steps NotifyOne.Step {} ls s) (he : ls = a ++ .start x id :: b) :
    (∀ id', .start x id' ∉ a) ∧ (.start x id' ∈ b → False) := by
  subst he
  obtain ⟨t, h1, h2⟩ := h.split
  have hi := one_inv h1
  cases h2 with
  | @cons _ u _ _ _ hs h3 =>
    cases hs with
    | start g _ hj =>
      refine ⟨fun id' => (hi.new _ (Nat.le_refl _)).2 id', fun hm => ?_⟩
      obtain ⟨b1, b2, rfl⟩ := List.append_of_mem hm
      rw [show a ++ NotifyOne.Label.start ⟨g, t.made g⟩ id :: (b1 ++ .start ⟨g, t.made g⟩ id' :: b2) = (a ++ .start ⟨g, t.made g⟩ id :: b1) ++ .start ⟨g, t.made g⟩ id' :: b2 by simp] at h
      obtain ⟨v, h4, h5⟩ := h.split
      cases h5 with
      | cons hs' _ =>
        generalize hy : NotifyOne.Label.start ⟨g, t.made g⟩ id' = l at hs'
        cases hs' with
        | start g' _ _ =>
          injection hy with e1 e2
          injection e1 with e3 e4
          subst e3
          have := ((one_inv h4).new ⟨g, v.made g⟩ (Nat.le_refl _)).2 id
          rw [← e4] at this
          exact this (by simp)
        | _ => cases hy

theorem held_after {a b : List NotifyOne.Label} {s : NotifyOne.State} {x : NotifyOne.Call} {id : Nat} {o : Option Nat} (h : Steps NotifyOne.Step {} (a ++ .start x id :: b) s)
    (hh : Held x id o (a ++ .start x id :: b)) : ∃ b1 b2, b = b1 ++ b2 ∧ holderOf id (a ++ [.start x id] ++ b1) = o := by
  obtain ⟨l1, l2, e, hm, ho⟩ := hh
  have hu := start_unique (id' := id) h rfl
  rw [List.append_eq_append_iff] at e
  rcases e with ⟨w, e2, e3⟩ | ⟨w, e2, e3⟩
  · cases w with
    | nil =>
      rw [e2, List.append_nil] at hm
      exact absurd hm (hu.1 id)
    | cons y w =>
      injection e3 with e3 e4
      subst e3
      exact ⟨w, l2, e4, by rw [← ho, e2]; simp⟩
  · exact absurd (by rw [e2]; simp [hm]) (hu.1 id)

/-- Whoever has the ID from the call on until it returns is sent the message, once, and nobody else is. -/
theorem C151_stays {a b : List NotifyOne.Label} {s : NotifyOne.State} {x : NotifyOne.Call} {id c : Nat} (h : Steps NotifyOne.Step {} (a ++ .start x id :: b) s) (hc : holderOf id a = some c)
    (hk : ∀ c', c' ≠ c → .set id c' ∉ b) (hd : .del id ∉ b) {r : NotifyOne.Res} (hr : .ret x id r ∈ b) : r ≠ .unknown ∧ sendsBy x (a ++ .start x id :: b) = [(id, c, decide (r = .sent))] := by
  have hheld : ∀ o, Held x id o (a ++ .start x id :: b) → o = some c := by
    intro o hh
    obtain ⟨b1, l2, rfl, ho⟩ := held_after h hh
    rw [← ho]
    have : ∀ b1 : List NotifyOne.Label, (∀ c', c' ≠ c → .set id c' ∉ b1) → .del id ∉ b1 → ∀ a, holderOf id a = some c → holderOf id (a ++ b1) = some c := by
      intro b1
      induction b1 with
      | nil => intro _ _ a ha; simpa using ha
      | cons l b1 ih =>
        intro h1 h2 a ha
        rw [show a ++ l :: b1 = (a ++ [l]) ++ b1 by simp]
        refine ih (fun c' hc' hm => h1 c' hc' (by simp [hm])) (fun hm => h2 (by simp [hm])) _ ?_
        rw [holderOf_snoc]
        cases l with
        | set id' c' =>
          dsimp only
          split
          · rename_i e
            subst e
            by_cases e : c' = c
            · rw [e]
            · exact absurd (by simp) (h1 c' e)
          · exact ha
        | del id' =>
          dsimp only
          split
          · rename_i e; subst e; simp at h2
          · exact ha
        | _ => exact ha
    exact this b1 (fun c' hc' hm => hk c' hc' (by simp [hm])) (fun hm => hd (by simp [hm])) _ (by rw [holderOf_snoc]; exact hc)
  have := C151_result h (r := r) (x := x) (id := id) (by simp [hr])
  cases r with
  | sent =>
    obtain ⟨c', h1, h2⟩ := this
    have := hheld _ h1
    injection this with this
    subst this
    exact ⟨by simp, by simpa using h2⟩
  | failed =>
    obtain ⟨c', h1, h2, _⟩ := this
    have := hheld _ h1
    injection this with this
    subst this
    exact ⟨by simp, by simpa using h2⟩
  | unknown => exact absurd (hheld _ this.1) (by simp)

/-- A call that begins when a connection no longer has the ID sends it nothing, unless it is given the ID again. -/
theorem C151_gone_partial {a b : List NotifyOne.Label} {s : NotifyOne.State} {x : NotifyOne.Call} {id c : Nat} (h : Steps NotifyOne.Step {} (a ++ .start x id :: b) s) (hc : holderOf id a ≠ some c)
    (hk : .set id c ∉ b) (ok : Bool) : .send x id c ok ∉ b := by
  intro hm
  obtain ⟨b1, b2, rfl⟩ := List.append_of_mem hm
  rw [show a ++ NotifyOne.Label.start x id :: (b1 ++ .send x id c ok :: b2) = (a ++ .start x id :: b1) ++ [.send x id c ok] ++ b2 by simp] at h
  obtain ⟨t, h1, _⟩ := h.split
  obtain ⟨u, h2, _⟩ := h1.unsnoc
  obtain ⟨b3, b4, rfl, ho⟩ := held_after h2 (C151_holder_partial h1).1
  have : ∀ b : List NotifyOne.Label, .set id c ∉ b → ∀ a, holderOf id a ≠ some c → holderOf id (a ++ b) ≠ some c := by
    intro b
    induction b with
    | nil => intro _ a ha; simpa using ha
    | cons l b ih =>
      intro h1 a ha
      rw [show a ++ l :: b = (a ++ [l]) ++ b by simp]
      refine ih (fun hm => h1 (by simp [hm])) _ ?_
      rw [holderOf_snoc]
      cases l with
      | set id' c' =>
        dsimp only
        split
        · rename_i e; subst e; intro e; cases e; simp at h1
        · exact ha
      | del id' => dsimp only; split <;> simp_all
      | _ => exact ha
  exact this b3 (fun hm => hk (by simp [hm])) _ (by rw [holderOf_snoc]; exact hc) ho

/-- A call sends at most once. -/
theorem C151_once {ls : List NotifyOne.Label} {s : NotifyOne.State} (h : Steps NotifyOne.Step {} ls s) (x : NotifyOne.Call) : (sendsBy x ls).length ≤ 1 := (one_inv h).len x

/-- The last part is false: a message is sent, with success, to a connection whose ID has been removed, or given to another connection, by then. -/
theorem C151_holder_refuted (o : Option Nat) : ∃ ls s x id c, Steps NotifyOne.Step {} (ls ++ [.send x id c true]) s ∧ c = 5 ∧ holderOf id ls = o := by
  cases o with
  | none =>
    exact ⟨[.set 1 5, .start ⟨0, 0⟩ 1, .get ⟨0, 0⟩ 1, .del 1], _, ⟨0, 0⟩, 1, 5,
      .cons (.set 1 5) <| .cons (.start 0 1 rfl) <| .cons (.found 0 ⟨0, 0⟩ 1 5 rfl rfl) <| .cons (.del 1) <| .cons (.send 0 ⟨0, 0⟩ 1 5 rfl) (.nil _), rfl, rfl⟩
  | some c =>
    exact ⟨[.set 1 5, .start ⟨0, 0⟩ 1, .get ⟨0, 0⟩ 1, .set 1 c], _, ⟨0, 0⟩, 1, 5,
      .cons (.set 1 5) <| .cons (.start 0 1 rfl) <| .cons (.found 0 ⟨0, 0⟩ 1 5 rfl rfl) <| .cons (.set 1 c) <| .cons (.send 0 ⟨0, 0⟩ 1 5 rfl) (.nil _), rfl, rfl⟩

/-- The actions of a call after it has begun. -/
def oneActs (x : NotifyOne.Call) : NotifyOne.Label → Prop
  | .get y _ => y = x
  | .send y _ _ _ => y = x
  | .ret y _ _ => y = x
  | _ => False

/-- How far a call is. -/
def oneRank : NotifyOne.Job → Nat
  | .idle => 0
  | .look _ _ => 3
  | .send _ _ _ => 2
  | .back _ _ _ => 1

/-- With weak fairness of its goroutine, its send returning (see C102), a call returns. -/
theorem C151_returns (e : Exec NotifyOne.Step) (h0 : e.run 0 = {}) {x : NotifyOne.Call} (hf : e.WeakFair (oneActs x)) {k id : Nat} (hk : e.act k = some (.start x id)) :
    ∃ m id' r, .ret x id' r ∈ e.trace m := by
  have hinv : ∀ m, OneInv (e.trace m) (e.run m) := fun m => one_inv (by have := e.steps m; rwa [h0] at this)
  have hstart : .start x id ∈ e.trace (k + 1) := by show _ ∈ e.trace k ++ (e.act k).toList; simp [hk]
  have hmono : ∀ a b : Nat, a ≤ b → ∀ l, l ∈ e.trace a → l ∈ e.trace b := by
    intro a b hab l hl
    induction hab with
    | refl => exact hl
    | step _ ih => show _ ∈ e.trace _ ++ _; simp [ih]
  have key : ∀ d m, oneCall ((e.run m).job x.who) = some x → oneRank ((e.run m).job x.who) ≤ d → ∃ m', m ≤ m' ∧ oneCall ((e.run m').job x.who) ≠ some x := by
    intro d
    induction d with
    | zero => intro m hx hd; revert hx hd; cases (e.run m).job x.who <;> simp [oneCall, oneRank]
    | succ d ih =>
      intro m hx hd
      have := e.leads_weak hf (P := fun s => (∀ g y, oneCall (s.job g) = some y → y.who = g) ∧ oneCall (s.job x.who) = some x ∧ oneRank (s.job x.who) ≤ d + 1)
        (Q := fun s => oneCall (s.job x.who) ≠ some x ∨ oneCall (s.job x.who) = some x ∧ oneRank (s.job x.who) ≤ d) ?_ ?_ ?_ (n := m) ⟨fun g y hy => ((hinv m).own g y hy).1, hx, hd⟩
      · obtain ⟨m', h1, h2 | ⟨h2, h3⟩⟩ := this
        · exact ⟨m', h1, h2⟩
        · obtain ⟨m'', h4, h5⟩ := ih m' h2 h3
          exact ⟨m'', by omega, h5⟩
      · rintro s l t ⟨ho, hx, hd⟩ hs
        cases hs with
        | set | del | close => exact .inl ⟨ho, hx, hd⟩
        | start g id h =>
          by_cases eg : x.who = g
          · rw [eg, h] at hx; cases hx
          · refine .inl ⟨fun g' y hy => ?_, by simpa [NotifyOne.upd, eg] using hx, by simpa [NotifyOne.upd, eg] using hd⟩
            dsimp only [NotifyOne.upd] at hy
            split at hy
            · cases hy; rename_i e; exact e.symm
            · exact ho g' y hy
        | found g y _ _ h | missed g y _ h | send g y _ _ h | ret g y _ _ h =>
          by_cases eg : x.who = g
          · right
            subst eg
            rw [h] at hx hd
            cases hx
            simp [NotifyOne.upd, oneCall, oneRank] at hd ⊢ <;> omega
          · have hy := ho g y (by rw [h]; rfl)
            refine .inl ⟨fun g' z hz => ?_, by simpa [NotifyOne.upd, eg] using hx, by simpa [NotifyOne.upd, eg] using hd⟩
            dsimp only [NotifyOne.upd] at hz
            split at hz
            · cases hz <;> (rename_i e; rw [e]; exact hy)
            · exact ho g' z hz
      · rintro s l t ⟨ho, hx, hd⟩ hs hA
        cases hs with
        | set | del | close | start => exact hA.elim
        | found g y _ _ h | missed g y _ h | send g y _ _ h | ret g y _ _ h =>
          have hA : y = x := hA
          subst hA
          have hy := ho g y (by rw [h]; rfl)
          subst hy
          rw [h] at hd
          simp [NotifyOne.upd, oneCall, oneRank] at hd ⊢ <;> omega
      · rintro s ⟨ho, hx, hd⟩
        cases hj : s.job x.who with
        | idle => rw [hj] at hx; cases hx
        | look y i =>
          rw [hj] at hx; cases hx
          cases hc : s.tab i with
          | none => exact ⟨.get x i, _, rfl, .missed _ x i hj hc⟩
          | some c => exact ⟨.get x i, _, rfl, .found _ x i c hj hc⟩
        | send y i c => rw [hj] at hx; cases hx; exact ⟨.send x i c _, _, rfl, .send _ x i c hj⟩
        | back y i r => rw [hj] at hx; cases hx; exact ⟨.ret x i r, _, rfl, .ret _ x i r hj⟩
  rcases (hinv (k + 1)).over x id hstart with h | ⟨id', r, h⟩
  · obtain ⟨m, hm, hn⟩ := key 3 (k + 1) h (by cases (e.run (k + 1)).job x.who <;> simp [oneRank])
    rcases (hinv m).over x id (hmono _ _ hm _ hstart) with h | ⟨id', r, h⟩
    · exact absurd h hn
    · exact ⟨m, id', r, h⟩
  · exact ⟨k + 1, id', r, h⟩

/-- The hypotheses of `C151_holder_partial`, `C151_result`, `C151_once` and `C151_stays`: a message to an ID; another one, which comes after the connection is closed; one to an ID that is unknown. -/
example : ∃ a b s, Steps NotifyOne.Step {} (a ++ .start ⟨0, 0⟩ 1 :: b) s ∧ holderOf 1 a = some 5 ∧ (∀ c', c' ≠ 5 → .set 1 c' ∉ b) ∧ .del 1 ∉ b ∧ .ret ⟨0, 0⟩ 1 .sent ∈ b ∧ .ret ⟨1, 0⟩ 1 .failed ∈ b ∧ .ret ⟨2, 0⟩ 2 .unknown ∈ b :=
  ⟨[.set 1 5], [.get ⟨0, 0⟩ 1, .send ⟨0, 0⟩ 1 5 true, .ret ⟨0, 0⟩ 1 .sent, .close 5, .start ⟨1, 0⟩ 1, .get ⟨1, 0⟩ 1, .send ⟨1, 0⟩ 1 5 false, .ret ⟨1, 0⟩ 1 .failed, .start ⟨2, 0⟩ 2, .get ⟨2, 0⟩ 2, .ret ⟨2, 0⟩ 2 .unknown], _,
    .cons (.set 1 5) <| .cons (.start 0 1 rfl) <| .cons (.found 0 ⟨0, 0⟩ 1 5 rfl rfl) <| .cons (.send 0 ⟨0, 0⟩ 1 5 rfl) <| .cons (.ret 0 ⟨0, 0⟩ 1 .sent rfl) <| .cons (.close 5) <| .cons (.start 1 1 rfl) <|
      .cons (.found 1 ⟨1, 0⟩ 1 5 rfl rfl) <| .cons (.send 1 ⟨1, 0⟩ 1 5 rfl) <| .cons (.ret 1 ⟨1, 0⟩ 1 .failed rfl) <| .cons (.start 2 2 rfl) <| .cons (.missed 2 ⟨2, 0⟩ 2 rfl rfl) <| .cons (.ret 2 ⟨2, 0⟩ 2 .unknown rfl) (.nil _),
    rfl, by simp, by simp, by simp, by simp, by simp⟩

/-- The hypotheses of `C151_gone_partial`: the ID is given to another connection before the call. -/
example : ∃ a b s, Steps NotifyOne.Step {} (a ++ .start ⟨0, 0⟩ 1 :: b) s ∧ .set 1 5 ∈ a ∧ holderOf 1 a ≠ some 5 ∧ .set 1 5 ∉ b ∧ .send ⟨0, 0⟩ 1 6 true ∈ b :=
  ⟨[.set 1 5, .set 1 6], [.get ⟨0, 0⟩ 1, .send ⟨0, 0⟩ 1 6 true], _,
    .cons (.set 1 5) <| .cons (.set 1 6) <| .cons (.start 0 1 rfl) <| .cons (.found 0 ⟨0, 0⟩ 1 6 rfl rfl) <| .cons (.send 0 ⟨0, 0⟩ 1 6 rfl) (.nil _), by simp, by decide, by simp, by simp⟩

/-- The hypotheses of `C151_returns`. -/
example : ∃ e : Exec NotifyOne.Step, e.run 0 = {} ∧ (∀ x, e.WeakFair (oneActs x)) ∧ e.act 1 = some (.start ⟨0, 0⟩ 1) := by
  obtain ⟨e, e1, e2, _, e4⟩ := Exec.ofSteps (step := NotifyOne.Step) (s := {}) (ls := [.set 1 5, .start ⟨0, 0⟩ 1, .get ⟨0, 0⟩ 1, .send ⟨0, 0⟩ 1 5 true, .ret ⟨0, 0⟩ 1 .sent])
    (.cons (.set 1 5) <| .cons (.start 0 1 rfl) <| .cons (.found 0 ⟨0, 0⟩ 1 5 rfl rfl) <| .cons (.send 0 ⟨0, 0⟩ 1 5 rfl) <| .cons (.ret 0 ⟨0, 0⟩ 1 .sent rfl) (.nil _))
  refine ⟨e, e1, fun x => Exec.weakFair_of_end e4 ?_, by rw [e2]; rfl⟩
  rintro ⟨l, t, hA, hs⟩
  cases hs with
  | found g _ _ _ h | missed g _ _ h | send g _ _ _ h | ret g _ _ _ h =>
    revert h
    simp only [NotifyOne.upd]
    repeat' split
    all_goals simp
  | _ => exact hA

end Zinx.Props
