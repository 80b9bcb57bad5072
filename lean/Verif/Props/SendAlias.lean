import Verif.Model.SendAlias

/-! # C108: the caller of a send may reuse its buffer -/

namespace Zinx.Props

open Zinx Zinx.SendAlias

/-- What the calls ask for: contents at the time of the call. -/
structure Asked where
  bufs : Nat → Bytes := fun _ => []         -- the user's arrays
  queue : Nat → List Bytes := fun _ => []
  wire : Nat → List Bytes := fun _ => []
  made : Nat := 0

/-- What is asked for: every call means the contents its slice has when it is called. The numbers of arrays are those of the real execution. -/
def Asked.next (packs : Packs) (q : Asked) : SendAlias.Label → Asked
  | .alloc bs => { q with bufs := upd q.bufs q.made bs, made := q.made + 1 }
  | .change a bs => { q with bufs := upd q.bufs a bs }
  | .send c a => { q with wire := upd q.wire c (q.wire c ++ [q.bufs a]) }
  | .sendMsg c id a => match packs c id (q.bufs a) with
    | .new bs => { q with wire := upd q.wire c (q.wire c ++ [bs]), made := q.made + 1 }
    | .given => { q with wire := upd q.wire c (q.wire c ++ [q.bufs a]) }
  | .sendBuffMsg c id a => match packs c id (q.bufs a) with
    | .new bs => { q with queue := upd q.queue c (q.queue c ++ [bs]), made := q.made + 1 }
    | .given => { q with queue := upd q.queue c (q.queue c ++ [q.bufs a]) }
  | .sendToQueue c a => { q with queue := upd q.queue c (q.queue c ++ [q.bufs a]) }
  | .take c => { q with queue := upd q.queue c (q.queue c).tail, wire := upd q.wire c (q.wire c ++ (q.queue c).take 1) }

def asked (packs : Packs) (ls : List SendAlias.Label) : Asked := ls.foldl (Asked.next packs) {}

/-- The user writes to no array that is still on a channel: along the execution from `s`. -/
inductive Careful (packs : Packs) : SendAlias.State → List SendAlias.Label → SendAlias.State → Prop where
  | nil (s : SendAlias.State) : Careful packs s [] s
  | cons {s t u : SendAlias.State} {l : SendAlias.Label} {ls : List SendAlias.Label} : SendAlias.Step packs s l t → (∀ a bs, l = .change a bs → ∀ c, a ∉ s.queue c) → Careful packs t ls u →
      Careful packs s (l :: ls) u

/-- Invariant: what is on the channels is what was asked for. -/
structure AliasInv (s : SendAlias.State) (q : Asked) : Prop where
  made : q.made = s.made
  below : ∀ a, s.users a = true → a < s.made
  bufs : ∀ a, s.users a = true → q.bufs a = s.heap a
  queued : ∀ c a, a ∈ s.queue c → a < s.made
  queue : ∀ c, q.queue c = (s.queue c).map s.heap
  wire : ∀ c, q.wire c = s.wire c

theorem map_other {f : Nat → Bytes} {a : Nat} {bs : Bytes} {l : List Nat} (h : a ∉ l) : l.map (upd f a bs) = l.map f := by
  apply List.map_congr_left
  intro x hx
  unfold upd
  rw [if_neg]
  intro e; rw [e] at hx; exact h hx

theorem alias_step {packs : Packs} {s t : SendAlias.State} {l : SendAlias.Label} {q : Asked} (hs : SendAlias.Step packs s l t) (hc : ∀ a bs, l = .change a bs → ∀ c, a ∉ s.queue c) (h : AliasInv s q) :
    AliasInv t (q.next packs l) := by
  obtain ⟨a, b, c, d, e, f⟩ := h
  have hm : ∀ c' bs, (s.queue c').map (upd s.heap s.made bs) = (s.queue c').map s.heap := fun c' bs => map_other (fun h => absurd (d c' _ h) (by omega))
  cases hs with
  | change a' bs h1 =>
    have hm' : ∀ c', (s.queue c').map (upd s.heap a' bs) = (s.queue c').map s.heap := fun c' => map_other (hc a' bs rfl c')
    refine ⟨a, b, ?_, d, ?_, f⟩ <;> simp only [Asked.next] <;> grind [upd]
  | sendMsgNew c' id a' bs h1 h2 => refine ⟨?_, ?_, ?_, ?_, ?_, ?_⟩ <;> simp only [Asked.next, c a' h1, h2] <;> grind [upd]
  | sendMsgGiven c' id a' h1 h2 => refine ⟨?_, ?_, ?_, ?_, ?_, ?_⟩ <;> simp only [Asked.next, c a' h1, h2] <;> grind [upd]
  | sendBuffNew c' id a' bs h1 h2 => refine ⟨?_, ?_, ?_, ?_, ?_, ?_⟩ <;> simp only [Asked.next, c a' h1, h2] <;> grind [upd]
  | sendBuffGiven c' id a' h1 h2 => refine ⟨?_, ?_, ?_, ?_, ?_, ?_⟩ <;> simp only [Asked.next, c a' h1, h2] <;> grind [upd]
  | _ => refine ⟨?_, ?_, ?_, ?_, ?_, ?_⟩ <;> simp only [Asked.next] <;> grind [upd]

theorem alias_run {packs : Packs} {s t : SendAlias.State} {ls : List SendAlias.Label} (h : Careful packs s ls t) : ∀ q, AliasInv s q → AliasInv t (ls.foldl (Asked.next packs) q) := by
  induction h with
  | nil s => exact fun _ h => h
  | cons hs hc _ ih => exact fun q h => ih _ (alias_step hs hc h)

theorem alias_init : AliasInv {} {} := ⟨rfl, nofun, nofun, nofun, fun _ => rfl, fun _ => rfl⟩

/-- **C108, partial:** for every kind of send, with any packs: if the user writes to no slice between its send call and the writer's taking it, then what is written on every connection is what was asked for, in the
order in which it was asked for. -/
theorem C108_partial (packs : Packs) (ls : List SendAlias.Label) (s : SendAlias.State) (h : Careful packs {} ls s) (c : Nat) :
    s.wire c = (asked packs ls).wire c ∧ (s.queue c).map s.heap = (asked packs ls).queue c := by
  have := alias_run h {} alias_init
  exact ⟨(this.wire c).symm, (this.queue c).symm⟩

/-- `Pack` makes a new array, as the shipped ones do. -/
def Copying (packs : Packs) : Prop := ∀ c id bs, ∃ bs', packs c id bs = .new bs'

/-- Invariant: arrays on channels are not the user's. -/
def Apart (s : SendAlias.State) : Prop := (∀ a, s.users a = true → a < s.made) ∧ ∀ c a, a ∈ s.queue c → s.users a = false ∧ a < s.made

theorem careful_of {packs : Packs} (hp : Copying packs) {s t : SendAlias.State} {ls : List SendAlias.Label} (h : Steps (SendAlias.Step packs) s ls t) (hn : ∀ c a, .sendToQueue c a ∉ ls) (ha : Apart s) :
    Careful packs s ls t := by
  induction h with
  | nil s => exact .nil s
  | @cons s u t l ls hs _ ih =>
    have hq : ∀ c a, l ≠ .sendToQueue c a := fun c a e => hn c a (by rw [e]; exact List.mem_cons_self)
    have hg : ∀ c id bs, packs c id bs ≠ .given := fun c id bs e => by
      obtain ⟨bs', h⟩ := hp c id bs
      rw [e] at h; cases h
    refine .cons hs ?_ (ih (fun c a hm => hn c a (List.mem_cons_of_mem _ hm)) ?_)
    · intro a bs e c hm
      have := (ha.2 c a hm).1
      subst e
      cases hs with
      | change _ _ h1 => rw [h1] at this; cases this
    · obtain ⟨h1, h2⟩ := ha
      cases hs <;> refine ⟨?_, ?_⟩ <;> grind [upd]

/-- **C108 (packed messages).** With packs that make a new array, as the shipped ones do, `Send`, `SendMsg` and `SendBuffMsg` may be given a slice that is written to as soon as the call has returned, whatever the writer
goroutines have done by then and whatever other goroutines send: what is written is what the slice had when it was given. -/
theorem C108_copied (packs : Packs) (hp : Copying packs) (ls : List SendAlias.Label) (s : SendAlias.State) (h : Steps (SendAlias.Step packs) {} ls s) (hn : ∀ c a, .sendToQueue c a ∉ ls) (c : Nat) :
    s.wire c = (asked packs ls).wire c ∧ (s.queue c).map s.heap = (asked packs ls).queue c :=
  C108_partial packs ls s (careful_of hp h hn ⟨nofun, nofun⟩) c

/-- The shipped packs, their headers left out. -/
def plainPack : Packs := fun _ _ bs => .new bs

/-- A pack of a user that sends messages as they are. -/
def rawPack : Packs := fun _ _ _ => .given

/-- **C108, refuted:** what was given to `SendToQueue` is not what is written, if the slice is written to after the call has returned. -/
theorem C108_refuted : ∃ (ls : List SendAlias.Label) (s : SendAlias.State), Steps (SendAlias.Step plainPack) {} ls s ∧ s.wire 0 = [[2]] ∧ (asked plainPack ls).wire 0 = [[1]] := by
  refine ⟨[.alloc [1], .sendToQueue 0 0, .change 0 [2], .take 0], _, .cons (.alloc _) (.cons (.sendToQueue 0 0 rfl) (.cons (.change 0 _ rfl) (.cons (.take 0 0 [] rfl) (.nil _)))), by decide, by decide⟩

/-- **C108, refuted for packs that do not copy:** the same with `SendBuffMsg`. -/
theorem C108_pack_refuted : ∃ (ls : List SendAlias.Label) (s : SendAlias.State), Steps (SendAlias.Step rawPack) {} ls s ∧ (∀ c a, .sendToQueue c a ∉ ls) ∧ s.wire 0 = [[2]] ∧ (asked rawPack ls).wire 0 = [[1]] := by
  refine ⟨[.alloc [1], .sendBuffMsg 0 7 0, .change 0 [2], .take 0], _, .cons (.alloc _) (.cons (.sendBuffGiven 0 7 0 rfl rfl) (.cons (.change 0 _ rfl) (.cons (.take 0 0 [] rfl) (.nil _)))), by simp, by decide, by decide⟩

/-- A slice is given to two connections, written to, and given again; the writers come later. -/
example : ∃ (ls : List SendAlias.Label) (s : SendAlias.State), Copying plainPack ∧ Steps (SendAlias.Step plainPack) {} ls s ∧ (∀ c a, .sendToQueue c a ∉ ls) ∧ s.wire 0 = [[1], [2]] ∧ s.wire 1 = [[1]] ∧
    (asked plainPack ls).wire 0 = [[1], [2]] := by
  refine ⟨[.alloc [1], .sendBuffMsg 0 7 0, .sendBuffMsg 1 7 0, .change 0 [2], .sendBuffMsg 0 7 0, .change 0 [3], .take 0, .take 1, .take 0], _, fun _ _ bs => ⟨bs, rfl⟩,
    .cons (.alloc _) (.cons (.sendBuffNew 0 7 0 [1] rfl rfl) (.cons (.sendBuffNew 1 7 0 [1] rfl rfl) (.cons (.change 0 _ rfl) (.cons (.sendBuffNew 0 7 0 [2] rfl rfl) (.cons (.change 0 _ rfl)
      (.cons (.take 0 1 [3] rfl) (.cons (.take 1 2 [] rfl) (.cons (.take 0 3 [] rfl) (.nil _))))))))), by simp, by decide, by decide, by decide⟩

/-- `SendToQueue` with care. -/
example : ∃ (ls : List SendAlias.Label) (s : SendAlias.State), Careful rawPack {} ls s ∧ s.wire 0 = [[1], [2]] := by
  refine ⟨[.alloc [1], .sendToQueue 0 0, .take 0, .change 0 [2], .sendToQueue 0 0, .take 0], _, .cons (.alloc _) nofun (.cons (.sendToQueue 0 0 rfl) nofun (.cons (.take 0 0 [] rfl) nofun
    (.cons (.change 0 _ rfl) ?_ (.cons (.sendToQueue 0 0 rfl) nofun (.cons (.take 0 0 [] rfl) nofun (.nil _)))))), by decide⟩
  intro a bs _ c hm
  simp only [upd] at hm
  split at hm <;> simp at hm

end Zinx.Props
