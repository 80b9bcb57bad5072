import Verif.Lemmas.ConnMgr
import Verif.Model.Accept

/-! # Facts about accepting connections -/

namespace Zinx.Accept

open Zinx Zinx.ShardMap Zinx.ConnMgr

theorem ids_append (a b : List Act) : ids (a ++ b) = ids a ++ ids b := by
  unfold ids; rw [List.filterMap_append]

/-- The IDs given are 1, 2, 3, ... modulo 2^64. -/
theorem ids_inv {mode : Mode} {maxConn : Nat} {ls : List Act} {s : State} (h : Steps (Step mode maxConn) initial ls s) :
    ids ls = (List.range (ids ls).length).map (fun i => UInt64.ofNat (i + 1)) ∧ s.cID = UInt64.ofNat (ids ls).length := by
  refine Steps.invariant_trace (P := fun ls (s : State) => ids ls = (List.range (ids ls).length).map (fun i => UInt64.ofNat (i + 1)) ∧
    s.cID = UInt64.ofNat (ids ls).length) ?_ h ⟨rfl, rfl⟩
  intro ls s l t hp hst
  obtain ⟨h1, h2⟩ := hp
  rw [ids_append]
  cases hst with
  | newId t ht =>
    have e : ids [Act.newId t (s.cID + 1)] = [s.cID + 1] := rfl
    rw [e]
    have e2 : s.cID + 1 = UInt64.ofNat ((ids ls).length + 1) := by rw [h2, UInt64.ofNat_add]; rfl
    constructor
    · rw [List.length_append, List.length_singleton, List.range_succ, List.map_append, ← h1, List.map_singleton, e2]
    · rw [List.length_append, List.length_singleton]; exact e2
  | _ =>
    exact ⟨by simpa [ids] using h1, by simpa [ids, State.goto] using h2⟩

/-- State of the single accept loop. -/
def Fits (maxConn : Nat) (s : State) : Thread → Prop
  | .idle => s.map.count ≤ maxConn
  | .counting i sum => s.map.count ≤ maxConn ∧ s.map.count ≤ sum + s.map.rest i
  | .passed => s.map.count < maxConn
  | .hasId _ => s.map.count < maxConn

theorem fits_le {maxConn : Nat} {s : State} {x : Thread} (h : Fits maxConn s x) : s.map.count ≤ maxConn := by
  cases x with
  | idle => exact h
  | counting _ _ => exact h.1
  | passed => exact Nat.le_of_lt h
  | hasId _ => exact Nat.le_of_lt h

/-- One step of a removal in the middle of a count. -/
theorem remove_rest {m : Shards Bytes Conn} (h : Wf m) (k : Bytes) {sum i : Nat} (h0 : m.count ≤ sum + m.rest i) :
    (m.remove k).count ≤ sum + (m.remove k).rest i := by
  have := counting_down (s := { map := m, next := i, sum := sum }) (t := { map := m.remove k, next := i, sum := sum }) h
    (.cons (.update _ (.remove k)) (.nil _)) (by intro a ha k v e; subst e; simp at ha) h0
  exact this.2

theorem single_inv {mode : Mode} (hm : ∀ t, mode.runs t → t = 0) {maxConn : Nat} {ls : List Act} {s : State}
    (h : Steps (Step mode maxConn) initial ls s) :
    Wf s.map ∧ Fits maxConn s (s.thread 0) ∧ ∀ t, t ≠ 0 → s.thread t = .idle := by
  refine Steps.invariant (P := fun s : State => Wf s.map ∧ Fits maxConn s (s.thread 0) ∧ ∀ t, t ≠ 0 → s.thread t = .idle) ?_ h
    ⟨mwf_new.wf, ?_, fun _ _ => rfl⟩
  · intro s l s' hp hst
    obtain ⟨w, f, o⟩ := hp
    have goto0 : ∀ x, (s.goto 0 x).thread 0 = x := fun x => by simp [State.goto]
    have gotoO : ∀ x t, t ≠ 0 → (s.goto 0 x).thread t = .idle := fun x t ht => by simp [State.goto, ht]; exact o t ht
    have only : ∀ t, s.thread t ≠ .idle → t = 0 := fun t ht => Classical.byContradiction fun c => ht (o t c)
    cases hst with
    | begin t hr ht =>
      have := hm t hr; subst this
      rw [ht] at f
      refine ⟨w, ?_, gotoO _⟩
      rw [goto0]
      exact ⟨f, by show s.map.count ≤ 0 + s.map.rest 0; rw [rest_zero]; omega⟩
    | visit t i sum ht hi =>
      have := only t (by rw [ht]; simp); subst this
      rw [ht] at f
      refine ⟨w, ?_, gotoO _⟩
      rw [goto0]
      have r := rest_next s.map hi
      exact ⟨f.1, by have := f.2; show s.map.count ≤ sum + (s.map.shard i).length + s.map.rest (i + 1); omega⟩
    | refuse t sum ht hs =>
      have := only t (by rw [ht]; simp); subst this
      rw [ht] at f
      refine ⟨w, ?_, gotoO _⟩
      rw [goto0]
      exact f.1
    | pass t sum ht hs =>
      have := only t (by rw [ht]; simp); subst this
      rw [ht] at f
      refine ⟨w, ?_, gotoO _⟩
      rw [goto0]
      have := f.2
      rw [rest_end s.map (Nat.le_refl _)] at this
      show s.map.count < maxConn
      omega
    | fail t ht =>
      have := only t (by rw [ht]; simp); subst this
      rw [ht] at f
      refine ⟨w, ?_, gotoO _⟩
      rw [goto0]
      exact Nat.le_of_lt f
    | newId t ht =>
      have := only t (by rw [ht]; simp); subst this
      rw [ht] at f
      refine ⟨w, ?_, gotoO _⟩
      dsimp only
      rw [goto0]
      exact f
    | add t id handle ht =>
      have := only t (by rw [ht]; simp); subst this
      rw [ht] at f
      refine ⟨set_wf w _ _, ?_, gotoO _⟩
      dsimp only
      rw [goto0]
      have := rest_set w (Conn.idStr ⟨handle, id⟩) ⟨handle, id⟩ 0
      rw [rest_zero, rest_zero] at this
      have f' : s.map.count < maxConn := f
      show (s.map.set (Conn.idStr ⟨handle, id⟩) ⟨handle, id⟩).count ≤ maxConn
      omega
    | remove c =>
      refine ⟨remove_wf w _, ?_, o⟩
      have r := rest_remove w c.idStr 0
      rw [rest_zero, rest_zero] at r
      dsimp only
      cases hx : s.thread 0 with
      | idle =>
        rw [hx] at f
        have f' : s.map.count ≤ maxConn := f
        show (s.map.remove c.idStr).count ≤ maxConn
        omega
      | counting i sum =>
        rw [hx] at f
        exact ⟨by have := f.1; show (s.map.remove c.idStr).count ≤ maxConn; omega, remove_rest w _ f.2⟩
      | passed =>
        rw [hx] at f
        have f' : s.map.count < maxConn := f
        show (s.map.remove c.idStr).count < maxConn
        omega
      | hasId id =>
        rw [hx] at f
        have f' : s.map.count < maxConn := f
        show (s.map.remove c.idStr).count < maxConn
        omega
  · show (newConnManager).count ≤ maxConn
    have : newConnManager.count = 0 := by decide +kernel
    omega

theorem goto_goto (s : State) (t : Nat) (x y : Thread) : (s.goto t x).goto t y = s.goto t y := by
  unfold State.goto
  congr 1
  funext u
  by_cases e : u = t <;> simp [e]

theorem goto_self {s : State} {t : Nat} {x : Thread} (h : s.thread t = x) : s.goto t x = s := by
  unfold State.goto
  have : (fun u => if u = t then x else s.thread u) = s.thread := by
    funext u
    by_cases e : u = t
    · subst e; simp [h]
    · simp [e]
  rw [this]

/-- Undisturbed visits of one goroutine. -/
theorem visits {mode : Mode} {maxConn : Nat} (t : Nat) (d : Nat) : ∀ (s : State) (i sum : Nat), s.thread t = .counting i sum →
    i + d = s.map.shards.length → ∃ ls, ids ls = [] ∧
      Steps (Step mode maxConn) s ls (s.goto t (.counting s.map.shards.length (sum + s.map.rest i))) := by
  induction d with
  | zero =>
    intro s i sum h hd
    refine ⟨[], rfl, ?_⟩
    rw [rest_end s.map (by omega), Nat.add_zero, show s.map.shards.length = i by omega, goto_self h]
    exact .nil _
  | succ d ih =>
    intro s i sum h hd
    have hi : i < s.map.shards.length := by omega
    obtain ⟨ls, h0, hl⟩ := ih (s.goto t (.counting (i + 1) (sum + (s.map.shard i).length))) (i + 1) (sum + (s.map.shard i).length)
      (by simp [State.goto]) (by show i + 1 + d = s.map.shards.length; omega)
    rw [goto_goto] at hl
    refine ⟨.visit t :: ls, h0, .cons (.visit _ t i sum h hi) ?_⟩
    have r := rest_next s.map hi
    have : sum + s.map.rest i = sum + (s.map.shard i).length + s.map.rest (i + 1) := by omega
    rw [this]
    exact hl

/-- One goroutine gets past the check without being disturbed. -/
theorem passes {mode : Mode} {maxConn : Nat} (s : State) (t : Nat) (hr : mode.runs t) (h : s.thread t = .idle) (hc : s.map.count < maxConn) :
    ∃ ls, ids ls = [] ∧ Steps (Step mode maxConn) s ls (s.goto t .passed) := by
  obtain ⟨ls, h0, hl⟩ := visits (mode := mode) (maxConn := maxConn) t s.map.shards.length (s.goto t (.counting 0 0)) 0 0 (by simp [State.goto])
    (by show 0 + s.map.shards.length = s.map.shards.length; omega)
  rw [goto_goto] at hl
  refine ⟨.begin t :: ls ++ [.pass t], ?_, ?_⟩
  · rw [ids_append]
    show ids ls ++ [] = []
    rw [h0]; rfl
  · refine Steps.append (.cons (.begin s t hr h) hl) ?_
    have p := Step.pass (mode := mode) (maxConn := maxConn) (s.goto t (.counting s.map.shards.length (0 + s.map.rest 0))) t (0 + s.map.rest 0)
      (by simp [State.goto]) (by rw [rest_zero]; omega)
    rw [goto_goto] at p
    exact .cons p (.nil _)

end Zinx.Accept
