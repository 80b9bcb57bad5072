import Verif.Model.Recycle

/-! # C109: a request holds its message for as long as it is used -/

namespace Zinx.Props

open Zinx Zinx.Recycle

/-- The messages sent to worker `w`, in order. -/
def sentHome (w : Nat) (ls : List Recycle.Label) : List Nat :=
  ls.filterMap fun | .send _ m w' => if w' = w then some m else none | _ => none

/-- How many requests worker `w` has taken. -/
def takenBy (w : Nat) (ls : List Recycle.Label) : Nat := ls.countP (· = .take w)

/-- The last message read on connection `c`. -/
def lastRead (c : Nat) (ls : List Recycle.Label) : Option Nat := ls.foldl (fun r l => match l with | .receive c' m => if c' = c then some m else r | _ => r) none

def Reader.obj : Reader → Option Nat
  | .got o _ | .filled o _ => some o
  | _ => none

def Reader.msg : Reader → Option Nat
  | .idle => none
  | .has m | .got _ m | .filled _ m | .handed _ m => some m

/-- Invariant: who has an object. -/
structure HoldInv (cfg : Cfg) (s : Recycle.State) : Prop where
  low : (∀ o ∈ s.pool, o < s.fresh) ∧ (∀ w, ∀ o ∈ s.queue w, o < s.fresh) ∧ (∀ w o, s.worker w = some o → o < s.fresh) ∧ (∀ c o, Reader.obj (s.reader c) = some o → o < s.fresh) ∧ ∀ c o m, s.reader c = .handed o m → o < s.fresh
  pool : s.pool.Nodup
  poolOff : cfg.poolMode = false → s.pool = []
  poolFree : ∀ o ∈ s.pool, (∀ w, o ∉ s.queue w) ∧ (∀ w, s.worker w ≠ some o) ∧ ∀ c, Reader.obj (s.reader c) ≠ some o
  reader : ∀ c o, Reader.obj (s.reader c) = some o → (∀ w, o ∉ s.queue w) ∧ (∀ w, s.worker w ≠ some o) ∧ ∀ c', Reader.obj (s.reader c') = some o → c' = c
  once : cfg.twice = false → (∀ w, (s.queue w).Nodup) ∧ (∀ w w' o, o ∈ s.queue w → o ∈ s.queue w' → w = w') ∧ (∀ w w' o, o ∈ s.queue w → s.worker w' ≠ some o) ∧
    ∀ w w' o, s.worker w = some o → s.worker w' = some o → w = w'
  filled : ∀ c o m, s.reader c = .filled o m → s.content o = m
  handed : cfg.poolMode = false → ∀ c o m, s.reader c = .handed o m → s.content o = m ∧ ∀ c', Reader.obj (s.reader c') ≠ some o

theorem hold_step {cfg : Cfg} (hc : cfg.poolMode = false ∨ cfg.twice = false) {s t : Recycle.State} {l : Recycle.Label} (hs : Recycle.Step cfg s l t) (h : HoldInv cfg s) : HoldInv cfg t := by
  obtain ⟨a, b, b', c, d, e, f, g⟩ := h
  have k1 : ∀ c o m, s.reader c = .got o m → Reader.obj (s.reader c) = some o := fun c o m h => by rw [h]; rfl
  have k2 : ∀ c o m, s.reader c = .filled o m → Reader.obj (s.reader c) = some o := fun c o m h => by rw [h]; rfl
  cases hs <;> refine ⟨?_, ?_, ?_, ?_, ?_, ?_, ?_, ?_⟩ <;> (try simp only [upd]) <;> grind [Reader.obj]

/-- Invariant: what the objects hold. -/
structure ValInv (cfg : Cfg) (ls : List Recycle.Label) (s : Recycle.State) : Prop where
  le : ∀ w, takenBy w ls ≤ (sentHome w ls).length
  queue : ∀ w, (s.queue w).map s.content = (sentHome w ls).drop (takenBy w ls)
  worker : ∀ w o, s.worker w = some o → 0 < takenBy w ls ∧ (sentHome w ls)[takenBy w ls - 1]? = some (s.content o)
  reader : ∀ c m, Reader.msg (s.reader c) = some m → lastRead c ls = some m

theorem sentHome_snoc (w : Nat) (ls : List Recycle.Label) (l : Recycle.Label) :
    sentHome w (ls ++ [l]) = sentHome w ls ++ sentHome w [l] := by simp [sentHome, List.filterMap_append]

theorem takenBy_snoc (w : Nat) (ls : List Recycle.Label) (l : Recycle.Label) : takenBy w (ls ++ [l]) = takenBy w ls + if l = .take w then 1 else 0 := by
  simp only [takenBy, List.countP_append, List.countP_singleton, decide_eq_true_eq]

theorem lastRead_snoc (c : Nat) (ls : List Recycle.Label) (l : Recycle.Label) :
    lastRead c (ls ++ [l]) = match l with | .receive c' m => if c' = c then some m else lastRead c ls | _ => lastRead c ls := by
  simp only [lastRead, List.foldl_append, List.foldl_cons, List.foldl_nil]

theorem fill_queue {q : List Nat} {f : Nat → Nat} {o m : Nat} (h : o ∉ q) : q.map (upd f o m) = q.map f := by
  apply List.map_congr_left
  intro a ha
  have : a ≠ o := fun e => h (e ▸ ha)
  simp [upd, this]

/-- A step that sends nothing and takes nothing. -/
theorem val_quiet {cfg : Cfg} {ls : List Recycle.Label} {s t : Recycle.State} {l : Recycle.Label} (hl : ∀ w, sentHome w [l] = []) (ht : ∀ w, l ≠ .take w) (v : ValInv cfg ls s)
    (hq : ∀ w, (t.queue w).map t.content = (s.queue w).map s.content) (hw : ∀ w o, t.worker w = some o → s.worker w = some o ∧ t.content o = s.content o)
    (hr : ∀ c m, Reader.msg (t.reader c) = some m → lastRead c (ls ++ [l]) = some m) : ValInv cfg (ls ++ [l]) t := by
  obtain ⟨e, q, k, r⟩ := v
  refine ⟨fun w => ?_, fun w => ?_, fun w o h => ?_, hr⟩
  · rw [sentHome_snoc, takenBy_snoc, hl, if_neg (ht w)]
    simpa using e w
  · rw [sentHome_snoc, takenBy_snoc, hl, if_neg (ht w), hq, q]
    simp
  · rw [sentHome_snoc, takenBy_snoc, hl, if_neg (ht w), (hw w o h).2]
    simpa using k w o (hw w o h).1

/-- A step that sends a request that holds its message. -/
theorem val_send {cfg : Cfg} {ls : List Recycle.Label} {s : Recycle.State} (v : ValInv cfg ls s) (c o m w0 : Nat) (rd : Nat → Reader) (ho : s.content o = m)
    (hr : ∀ c' m', Reader.msg (rd c') = some m' → lastRead c' ls = some m') :
    ValInv cfg (ls ++ [.send c m w0]) { s with reader := rd, queue := upd s.queue w0 (s.queue w0 ++ [o]) } := by
  obtain ⟨e, q, k, r⟩ := v
  have ht : ∀ w, takenBy w (ls ++ [.send c m w0]) = takenBy w ls := fun w => by rw [takenBy_snoc]; simp
  have hse : ∀ w, sentHome w (ls ++ [.send c m w0]) = sentHome w ls ++ if w0 = w then [m] else [] := fun w => by
    rw [sentHome_snoc]
    by_cases h : w0 = w <;> simp [sentHome, h]
  refine ⟨fun w => ?_, fun w => ?_, fun w o' h => ?_, fun c' m' h => ?_⟩
  · rw [ht, hse]
    have := e w
    simp
    omega
  · rw [ht, hse]
    by_cases h : w0 = w
    · subst h
      simp [upd, q, List.drop_append_of_le_length (e _), ho]
    · have h' : ¬ w = w0 := fun e => h e.symm
      simp [upd, h, h', q]
  · have := k w o' h
    have h2 := e w
    rw [ht, hse, List.getElem?_append_left (by omega)]
    exact this
  · rw [lastRead_snoc]
    exact hr c' m' h

theorem val_step {cfg : Cfg} {ls : List Recycle.Label} {s t : Recycle.State} {l : Recycle.Label} (hs : Recycle.Step cfg s l t) (h : HoldInv cfg s)
    (hh : cfg.twice = true → ∀ c o m, s.reader c = .handed o m → s.content o = m) (v : ValInv cfg ls s) : ValInv cfg (ls ++ [l]) t := by
  have k1 : ∀ c o m, s.reader c = .got o m → Reader.obj (s.reader c) = some o := fun c o m h => by rw [h]; rfl
  have vr := v.reader
  cases hs with
  | receive c m hi =>
    refine val_quiet (fun w => rfl) (fun w => by simp) v (fun w => rfl) (fun w o h => ⟨h, rfl⟩) fun c' m' h => ?_
    rw [lastRead_snoc]
    grind [upd, Reader.msg]
  | getOld c o m l1 l2 hp hr hpl =>
    refine val_quiet (fun w => rfl) (fun w => by simp) v (fun w => rfl) (fun w o h => ⟨h, rfl⟩) fun c' m' h => ?_
    rw [lastRead_snoc]
    grind [upd, Reader.msg]
  | getNew c m hr =>
    refine val_quiet (fun w => rfl) (fun w => by simp) v (fun w => rfl) (fun w o h => ⟨h, rfl⟩) fun c' m' h => ?_
    rw [lastRead_snoc]
    grind [upd, Reader.msg]
  | fill c o m hr =>
    have := h.reader c o (k1 c o m hr)
    refine val_quiet (fun w => rfl) (fun w => by simp) v (fun w => fill_queue (this.1 w)) (fun w o' h' => ⟨h', ?_⟩) fun c' m' h => ?_
    · have : o' ≠ o := fun e => this.2.1 w (e ▸ h')
      simp [upd, this]
    · rw [lastRead_snoc]
      grind [upd, Reader.msg]
  | see c o m hr => exact val_quiet (fun w => rfl) (fun w => by simp) v (fun w => rfl) (fun w o h => ⟨h, rfl⟩) fun c' m' h => by rw [lastRead_snoc]; exact vr c' m' h
  | stop c o m hr =>
    refine val_quiet (fun w => rfl) (fun w => by simp) v (fun w => rfl) (fun w o h => ⟨h, rfl⟩) fun c' m' h => ?_
    rw [lastRead_snoc]
    grind [upd, Reader.msg]
  | send c o m w0 _ hr => exact val_send v c o m w0 _ (h.filled c o m hr) (by grind [upd, Reader.msg])
  | again c o m w0 htw _ hr => exact val_send v c o m w0 s.reader (hh htw c o m hr) vr
  | late c o m hr => exact val_quiet (fun w => rfl) (fun w => by simp) v (fun w => rfl) (fun w o h => ⟨h, rfl⟩) fun c' m' h => by rw [lastRead_snoc]; exact vr c' m' h
  | back c o m hr =>
    refine val_quiet (fun w => rfl) (fun w => by simp) v (fun w => rfl) (fun w o h => ⟨h, rfl⟩) fun c' m' h => ?_
    rw [lastRead_snoc]
    grind [upd, Reader.msg]
  | take w o rest hw hq =>
    obtain ⟨e, q, k, r⟩ := v
    have hse : ∀ w', sentHome w' (ls ++ [.take w]) = sentHome w' ls := fun w' => by rw [sentHome_snoc]; simp [sentHome]
    have hdrop : s.content o :: rest.map s.content = (sentHome w ls).drop (takenBy w ls) := by rw [← q w, hq]; rfl
    have hlt : takenBy w ls < (sentHome w ls).length := by
      have := congrArg List.length hdrop
      simp at this
      omega
    rw [List.drop_eq_getElem_cons hlt] at hdrop
    injection hdrop with h1 h2
    refine ⟨fun w' => ?_, fun w' => ?_, fun w' o' h' => ?_, fun c' m' h' => ?_⟩
    · rw [hse, takenBy_snoc]
      have := e w'
      by_cases hww : w = w'
      · subst hww; simp; omega
      · simp [hww]; omega
    · rw [hse, takenBy_snoc]
      by_cases hww : w = w'
      · subst hww; simp [upd, h2]
      · have hww' : ¬ w' = w := fun e => hww e.symm
        simp [hww, hww', upd, q]
    · rw [hse, takenBy_snoc]
      by_cases hww : w = w'
      · subst hww
        simp [upd] at h'
        subst h'
        simp [h1, hlt]
      · have hww' : ¬ w' = w := fun e => hww e.symm
        simp [upd, hww'] at h'
        simpa [hww] using k w' o' h'
    · rw [lastRead_snoc]
      exact r c' m' h'
  | look w o hw => exact val_quiet (fun w => rfl) (fun w => by simp) v (fun w => rfl) (fun w o h => ⟨h, rfl⟩) fun c' m' h => by rw [lastRead_snoc]; exact vr c' m' h
  | finish w o hw =>
    refine val_quiet (fun w => rfl) (fun w => by simp) v (fun w => rfl) (fun w o h => ⟨?_, rfl⟩) fun c' m' h => by rw [lastRead_snoc]; exact vr c' m' h
    grind [upd]
  | drop w o hw =>
    refine val_quiet (fun w => rfl) (fun w => by simp) v (fun w => rfl) (fun w o h => ⟨?_, rfl⟩) fun c' m' h => by rw [lastRead_snoc]; exact vr c' m' h
    grind [upd]

theorem recycle_inv {cfg : Cfg} (hc : cfg.poolMode = false ∨ cfg.twice = false) {ls : List Recycle.Label} {s : Recycle.State} (hs : Steps (Recycle.Step cfg) {} ls s) : HoldInv cfg s ∧ ValInv cfg ls s := by
  refine hs.invariant_trace (P := fun ls s => HoldInv cfg s ∧ ValInv cfg ls s) ?_ ?_
  · intro ls s l t ⟨h, v⟩ hs
    refine ⟨hold_step hc hs h, val_step hs h (fun ht c o m hr => ?_) v⟩
    exact (h.handed (by simpa [ht] using hc) c o m hr).1
  · refine ⟨⟨?_, ?_, ?_, ?_, ?_, ?_, ?_, ?_⟩, ⟨?_, ?_, ?_, ?_⟩⟩ <;> simp [Reader.obj, Reader.msg, sentHome, takenBy]

/-- Every handler finds the message in its request that was sent at its place in the queue of its worker, and every interceptor that has not proceeded yet finds the message that was read last on its connection;
that message is what is sent. -/
theorem C109_partial (cfg : Cfg) (hc : cfg.poolMode = false ∨ cfg.twice = false) (ls : List Recycle.Label) (s t : Recycle.State) (hs : Steps (Recycle.Step cfg) {} ls s) :
    (∀ w m, Recycle.Step cfg s (.look w m) t → 0 < takenBy w ls ∧ (sentHome w ls)[takenBy w ls - 1]? = some m) ∧
    (∀ c m, Recycle.Step cfg s (.see c m) t → lastRead c ls = some m) ∧
    ∀ c m w, Recycle.Step cfg s (.send c m w) t → lastRead c ls = some m := by
  obtain ⟨h, v⟩ := recycle_inv hc hs
  refine ⟨fun w m hs => ?_, fun c m hs => ?_, fun c m w hs => ?_⟩
  · cases hs with
    | look _ o hw => exact v.worker w o hw
  · cases hs with
    | see _ o m' hr => exact v.reader c _ (by rw [hr, h.filled c o m' hr]; rfl)
  · cases hs with
    | send _ o _ _ _ hr => exact v.reader c m (by rw [hr]; rfl)
    | again _ o _ _ _ _ hr => exact v.reader c m (by rw [hr]; rfl)

/-- Without the pool, an interceptor finds its message also after the request has been sent. -/
theorem C109_late (cfg : Cfg) (hc : cfg.poolMode = false) (ls : List Recycle.Label) (s t : Recycle.State) (hs : Steps (Recycle.Step cfg) {} ls s) (c m : Nat) (hl : Recycle.Step cfg s (.late c m) t) :
    lastRead c ls = some m := by
  obtain ⟨h, v⟩ := recycle_inv (.inl hc) hs
  cases hl with
  | late _ o m' hr => exact v.reader c _ (by rw [hr, (h.handed hc c o m' hr).1]; rfl)

/-- Invariant: the request of connection `c` has not been handled, or there is no pool. -/
structure Untouched (cfg : Cfg) (c o m w : Nat) (s : Recycle.State) : Prop where
  reader : s.reader c = .handed o m
  content : s.content o = m
  low : o < s.fresh
  pool : o ∉ s.pool
  only : ∀ c', Reader.obj (s.reader c') ≠ some o
  home : cfg.poolMode = true → ∀ w', w' ≠ w → o ∉ s.queue w' ∧ s.worker w' ≠ some o
  own : cfg.twice = true → cfg.poolMode = false

theorem untouched_step {cfg : Cfg} {c o m w : Nat} {s t : Recycle.State} {l : Recycle.Label} (hs : Recycle.Step cfg s l t) (h1 : l ≠ .finish w) (h2 : l ≠ .back c)
    (u : Untouched cfg c o m w s) : Untouched cfg c o m w t := by
  obtain ⟨a, b, d, e, f, g, k⟩ := u
  have k1 : ∀ c o m, s.reader c = .got o m → Reader.obj (s.reader c) = some o := fun c o m h => by rw [h]; rfl
  have k2 : ∀ c o m, s.reader c = .filled o m → Reader.obj (s.reader c) = some o := fun c o m h => by rw [h]; rfl
  cases hs <;> refine ⟨?_, ?_, ?_, ?_, ?_, ?_, ?_⟩ <;> (try simp only [upd]) <;> grind [Reader.obj]

theorem untouched_run {cfg : Cfg} {c o m w : Nat} {s t : Recycle.State} {ls : List Recycle.Label} (hs : Steps (Recycle.Step cfg) s ls t) (h1 : .finish w ∉ ls) (h2 : .back c ∉ ls)
    (u : Untouched cfg c o m w s) : Untouched cfg c o m w t := by
  induction hs with
  | nil => exact u
  | cons hst _ ih =>
    simp only [List.mem_cons, not_or] at h1 h2
    exact ih h1.2 h2.2 (untouched_step hst (fun e => h1.1 e.symm) (fun e => h2.1 e.symm) u)

theorem untouched_send {cfg : Cfg} (hc : cfg.poolMode = false ∨ cfg.twice = false) {c m w : Nat} {s t : Recycle.State} (h : HoldInv cfg s) (hs : Recycle.Step cfg s (.send c m w) t) : ∃ o, Untouched cfg c o m w t := by
  obtain ⟨a, b, b', c, d, e, f, g⟩ := h
  have k1 : ∀ c o m, s.reader c = .got o m → Reader.obj (s.reader c) = some o := fun c o m h => by rw [h]; rfl
  have k2 : ∀ c o m, s.reader c = .filled o m → Reader.obj (s.reader c) = some o := fun c o m h => by rw [h]; rfl
  cases hs <;> (refine ⟨by assumption, ?_, ?_, ?_, ?_, ?_, ?_, ?_⟩) <;> (try simp only [upd]) <;> grind [Reader.obj]

/-- With the pool too, an interceptor finds its message for as long as the worker it was sent to has not finished with a request since the request was sent. -/
theorem C109_window (cfg : Cfg) (hc : cfg.poolMode = false ∨ cfg.twice = false) (ls ls' : List Recycle.Label) (c m w m' : Nat) (s t : Recycle.State) (hs : Steps (Recycle.Step cfg) {} (ls ++ .send c m w :: ls') s)
    (h1 : .finish w ∉ ls') (h2 : .back c ∉ ls') (hl : Recycle.Step cfg s (.late c m') t) : m' = m := by
  obtain ⟨s1, hs1, hs2⟩ := hs.split
  cases hs2 with
  | cons hst hs2 =>
    obtain ⟨o, u⟩ := untouched_send hc (recycle_inv hc hs1).1 hst
    have u' := untouched_run hs2 h1 h2 u
    cases hl with
    | late _ o' m' hr =>
      rw [u'.reader] at hr
      cases hr
      exact u'.content

/-- With the pool, an interceptor may find the message of another connection in its request once it has proceeded. -/
theorem C109_late_refuted (cfg : Cfg) (w : Nat) (hw : cfg.home 0 w) (hp : cfg.poolMode = true) :
    ∃ ls s t, Steps (Recycle.Step cfg) {} ls s ∧ Recycle.Step cfg s (.late 0 2) t ∧ lastRead 0 ls = some 1 ∧ lastRead 1 ls = some 2 := by
  refine ⟨[.receive 0 1, .get 0 0, .fill 0, .send 0 1 w, .take w, .finish w, .receive 1 2, .get 1 0, .fill 1], _, _,
    .cons (.receive 0 1 rfl) <| .cons (.getNew 0 1 rfl) <| .cons (.fill 0 0 1 rfl) <| .cons (.send 0 0 1 w hw rfl) <| .cons (.take w 0 [] rfl (by simp [upd])) <|
      .cons (.finish w 0 (by simp [upd])) <| .cons (.receive 1 2 rfl) <| .cons (.getOld 1 0 2 [] [] hp rfl (by simp [hp])) <| .cons (.fill 1 0 2 rfl) (.nil _), .late 0 0 1 rfl, rfl, rfl⟩

/-- With the pool, and interceptors that proceed twice, a handler may find a message in its request that was not sent to its worker, nor to any other. -/
theorem C109_refuted (cfg : Cfg) (w : Nat) (hw : cfg.home 0 w) (hp : cfg.poolMode = true) (ht : cfg.twice = true) :
    ∃ ls s t, Steps (Recycle.Step cfg) {} ls s ∧ Recycle.Step cfg s (.look w 2) t ∧ (sentHome w ls)[takenBy w ls - 1]? = some 1 ∧
      (∀ c w', .send c 2 w' ∉ ls) ∧ lastRead 1 ls = some 2 := by
  refine ⟨[.receive 0 1, .get 0 0, .fill 0, .send 0 1 w, .send 0 1 w, .take w, .finish w, .receive 1 2, .get 1 0, .fill 1, .take w], _, _,
    .cons (.receive 0 1 rfl) <| .cons (.getNew 0 1 rfl) <| .cons (.fill 0 0 1 rfl) <| .cons (.send 0 0 1 w hw rfl) <| .cons (.again 0 0 1 w ht hw rfl) <| .cons (.take w 0 [0] rfl (by simp [upd])) <|
      .cons (.finish w 0 (by simp [upd])) <| .cons (.receive 1 2 rfl) <| .cons (.getOld 1 0 2 [] [] hp rfl (by simp [hp])) <| .cons (.fill 1 0 2 rfl) <|
      .cons (.take w 0 [] (by simp [upd]) (by simp [upd])) (.nil _), .look w 0 (by simp [upd]), ?_, ?_, rfl⟩
  · simp [sentHome, takenBy]
  · simp

/-- So the condition of `C109_partial` is exact. -/
theorem C109_exact (cfg : Cfg) (w0 : Nat) (hw : cfg.home 0 w0) :
    (∀ ls s t w m, Steps (Recycle.Step cfg) {} ls s → Recycle.Step cfg s (.look w m) t → (sentHome w ls)[takenBy w ls - 1]? = some m) ↔ cfg.poolMode = false ∨ cfg.twice = false := by
  refine ⟨fun h => ?_, fun hc ls s t w m hs hl => ((C109_partial cfg hc ls s t hs).1 w m hl).2⟩
  by_cases hp : cfg.poolMode = true
  · by_cases ht : cfg.twice = true
    · obtain ⟨ls, s, t, hs, hl, h1, -⟩ := C109_refuted cfg w0 hw hp ht
      have := h ls s t _ _ hs hl
      rw [h1] at this
      simp at this
    · exact .inr (by simpa using ht)
  · exact .inl (by simpa using hp)

/-- With the pool, the object of a handled message serves another connection, and its handler finds the new message. -/
example : ∃ ls s t, Steps (Recycle.Step ⟨true, false, fun _ w => w = 0⟩) {} ls s ∧ Recycle.Step ⟨true, false, fun _ w => w = 0⟩ s (.look 0 2) t ∧ .get 0 0 ∈ ls ∧ .get 1 0 ∈ ls ∧ takenBy 0 ls = 2 := by
  refine ⟨[.receive 0 1, .get 0 0, .fill 0, .send 0 1 0, .take 0, .finish 0, .receive 1 2, .get 1 0, .fill 1, .send 1 2 0, .take 0], _, _,
    .cons (.receive 0 1 rfl) <| .cons (.getNew 0 1 rfl) <| .cons (.fill 0 0 1 rfl) <| .cons (.send 0 0 1 0 rfl rfl) <| .cons (.take 0 0 [] rfl (by simp [upd])) <|
      .cons (.finish 0 0 (by simp [upd])) <| .cons (.receive 1 2 rfl) <| .cons (.getOld 1 0 2 [] [] rfl rfl rfl) <| .cons (.fill 1 0 2 rfl) <| .cons (.send 1 0 2 0 rfl rfl) <|
      .cons (.take 0 0 [] (by simp [upd]) (by simp [upd])) (.nil _), .look 0 0 (by simp [upd]), ?_, ?_, ?_⟩
  · simp
  · simp
  · simp [takenBy]

/-- Without the pool, an interceptor proceeds twice and then looks at its request, after the first handler has finished. -/
example : ∃ ls ls' s t, Steps (Recycle.Step ⟨false, true, fun _ w => w = 0⟩) {} (ls ++ .send 0 1 0 :: ls') s ∧ Recycle.Step ⟨false, true, fun _ w => w = 0⟩ s (.late 0 1) t ∧ .finish 0 ∉ ls' ∧ .back 0 ∉ ls' ∧ .finish 0 ∈ ls := by
  refine ⟨[.receive 0 1, .get 0 0, .fill 0, .send 0 1 0, .take 0, .finish 0], [.receive 1 2, .get 1 1, .fill 1], _, _,
    .cons (.receive 0 1 rfl) <| .cons (.getNew 0 1 rfl) <| .cons (.fill 0 0 1 rfl) <| .cons (.send 0 0 1 0 rfl rfl) <| .cons (.take 0 0 [] rfl (by simp [upd])) <|
      .cons (.finish 0 0 (by simp [upd])) <| .cons (.again 0 0 1 0 rfl rfl rfl) <| .cons (.receive 1 2 rfl) <| .cons (.getNew 1 2 rfl) <| .cons (.fill 1 1 2 rfl) (.nil _), .late 0 0 1 rfl, ?_, ?_, ?_⟩
  · simp
  · simp
  · simp

/-- Without a worker pool: two messages of one connection handled at the same time, with the object pool. -/
example : ∃ ls s t u, Steps (Recycle.Step ⟨true, false, fun _ _ => True⟩) {} ls s ∧ Recycle.Step ⟨true, false, fun _ _ => True⟩ s (.look 5 1) t ∧ Recycle.Step ⟨true, false, fun _ _ => True⟩ t (.look 6 2) u := by
  refine ⟨[.receive 0 1, .get 0 0, .fill 0, .send 0 1 5, .back 0, .receive 0 2, .get 0 1, .fill 0, .send 0 2 6, .take 6, .take 5], _, _, _,
    .cons (.receive 0 1 rfl) <| .cons (.getNew 0 1 rfl) <| .cons (.fill 0 0 1 rfl) <| .cons (.send 0 0 1 5 trivial rfl) <| .cons (.back 0 0 1 rfl) <| .cons (.receive 0 2 rfl) <|
      .cons (.getNew 0 2 rfl) <| .cons (.fill 0 1 2 rfl) <| .cons (.send 0 1 2 6 trivial rfl) <| .cons (.take 6 1 [] rfl rfl) <| .cons (.take 5 0 [] rfl rfl) (.nil _), .look 5 0 rfl, .look 6 1 rfl⟩

/-- Messages read on connection `c`. -/
def readsOn (c : Nat) (ls : List Recycle.Label) : Nat := ls.countP fun | .receive c' _ => c' = c | _ => false
/-- Request objects got for connection `c`. -/
def getsOn (c : Nat) (ls : List Recycle.Label) : Nat := ls.countP fun | .get c' _ => c' = c | _ => false

theorem count_inv {cfg : Cfg} {ls : List Recycle.Label} {s : Recycle.State} (hs : Steps (Recycle.Step cfg) {} ls s) (c : Nat) :
    (readsOn c ls = getsOn c ls + match s.reader c with | .has _ => 1 | _ => 0) ∧ (getsOn c ls = ls.count (.fill c) + match s.reader c with | .got _ _ => 1 | _ => 0) ∧
      (ls.count (.fill c) = ls.count (.back c) + match s.reader c with | .filled _ _ => 1 | .handed _ _ => 1 | _ => 0) := by
  refine hs.invariant_trace (P := fun ls s => (readsOn c ls = getsOn c ls + match s.reader c with | .has _ => 1 | _ => 0) ∧ (getsOn c ls = ls.count (.fill c) + match s.reader c with | .got _ _ => 1 | _ => 0) ∧
      (ls.count (.fill c) = ls.count (.back c) + match s.reader c with | .filled _ _ => 1 | .handed _ _ => 1 | _ => 0)) ?_ (by simp [readsOn, getsOn])
  intro ls s l t ⟨h1, h2, h3⟩ hst
  unfold readsOn getsOn at *
  simp only [List.countP_append, List.countP_cons, List.countP_nil, List.count_append, List.count_cons, List.count_nil]
  cases hst with
  | receive c' _ hr | getOld c' _ _ _ _ _ hr | getNew c' _ hr | fill c' _ _ hr | stop c' _ _ hr | send c' _ _ _ _ hr | back c' _ _ hr =>
    by_cases hc : c' = c
    · subst hc; simp [upd, hr] at h1 h2 h3 ⊢; omega
    · have hc' : ¬ c = c' := fun h => hc h.symm
      simp [upd, hc, hc']; omega
  | _ => simp; omega

/-- Every message read on a connection gets one request object, which is filled once, and the chain of interceptors returns once for it, before the next message is read. -/
theorem C109_once (cfg : Cfg) (ls : List Recycle.Label) (s : Recycle.State) (hs : Steps (Recycle.Step cfg) {} ls s) (c : Nat) :
    ls.count (.back c) ≤ ls.count (.fill c) ∧ ls.count (.fill c) ≤ getsOn c ls ∧ getsOn c ls ≤ readsOn c ls ∧ readsOn c ls ≤ ls.count (.back c) + 1 := by
  obtain ⟨h1, h2, h3⟩ := count_inv hs c
  cases hr : s.reader c <;> simp [hr] at h1 h2 h3 <;> omega

/-- Two messages of one connection: the first is given up by an interceptor, the second is being handled. -/
example : ∃ s, Steps (Recycle.Step ⟨true, false, fun _ _ => True⟩) {} [.receive 0 1, .get 0 0, .fill 0, .back 0, .receive 0 2, .get 0 1, .fill 0, .send 0 2 6] s :=
  ⟨_, .cons (.receive 0 1 rfl) <| .cons (.getNew 0 1 rfl) <| .cons (.fill 0 0 1 rfl) <| .cons (.stop 0 0 1 rfl) <| .cons (.receive 0 2 rfl) <| .cons (.getNew 0 2 rfl) <| .cons (.fill 0 1 2 rfl) <|
    .cons (.send 0 1 2 6 trivial rfl) (.nil _)⟩

end Zinx.Props
