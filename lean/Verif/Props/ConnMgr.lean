import Verif.Lemmas.ConnMgr

/-! # C31, C34 and C65: connection manager and notifier -/

namespace Zinx.Props

open Zinx Zinx.ShardMap Zinx.ConnMgr Zinx.Spec.ShardMap

/-! ## C31 -/

/-- **C31.** Every history of calls of the connection manager, with its results, is one of a map from 64-bit IDs to connections. -/
theorem C31_manager_is_map {ls : List (ConnMgr.Op × ConnMgr.Res)} {s : Shards Bytes Conn} (h : Steps ConnMgr.Call newConnManager ls s) :
    ∃ m, Steps Spec.ConnMgr.Call (fun _ => none) ls m := by
  have := (mcalls_spec mwf_new h).2
  have e : byId newConnManager = fun _ => none := by
    funext i; unfold byId newConnManager; exact create_get _ _ _
  rw [e] at this
  exact ⟨_, this⟩

/-- **C31 (last added wins).** After any history, after adding `c` and calls that neither add nor remove anything under its ID, `Get` of that ID
returns `c`. -/
theorem C31_last_added {ls ls' : List (ConnMgr.Op × ConnMgr.Res)} {c : Conn} {r : Option Conn} {s : Shards Bytes Conn}
    (h : Steps ConnMgr.Call newConnManager (ls ++ (.add c, .unit) :: ls' ++ [(.get c.id, .conn r)]) s)
    (hq : ∀ x ∈ ls', ∀ c' : Conn, c'.id = c.id → x.1 ≠ .add c' ∧ x.1 ≠ .remove c') : r = some c := by
  obtain ⟨m, hm⟩ := C31_manager_is_map h
  have split : ∀ {l1 l2 : List (ConnMgr.Op × ConnMgr.Res)} {a b : Spec.ConnMgr.Mgr}, Steps Spec.ConnMgr.Call a (l1 ++ l2) b →
      ∃ u, Steps Spec.ConnMgr.Call a l1 u ∧ Steps Spec.ConnMgr.Call u l2 b := by
    intro l1
    induction l1 with
    | nil => intro l2 a b h; exact ⟨a, .nil _, h⟩
    | cons x l1 ih =>
      intro l2 a b h
      cases h with
      | cons h1 h2 =>
        obtain ⟨u, x, y⟩ := ih h2
        exact ⟨u, .cons h1 x, y⟩
  obtain ⟨u, h1, h2⟩ := split hm
  obtain ⟨w, _, h3⟩ := split h1
  cases h3 with
  | cons h4 h5 =>
    rename_i w'
    have hw : w' c.id = some c := by
      cases h4 with
      | add h => exact h.1
    have keep : ∀ {a b : Spec.ConnMgr.Mgr} {l : List (ConnMgr.Op × ConnMgr.Res)}, Steps Spec.ConnMgr.Call a l b →
        (∀ x ∈ l, ∀ c' : Conn, c'.id = c.id → x.1 ≠ .add c' ∧ x.1 ≠ .remove c') → b c.id = a c.id := by
      intro a b l h
      induction h with
      | nil => intro _; rfl
      | @cons s t u l ls hs _ ih =>
        intro hq
        rw [ih fun x hx => hq x (List.mem_cons_of_mem _ hx)]
        have q := hq l List.mem_cons_self
        cases hs with
        | add h => rename_i c'; exact h.2 _ fun e => (q c' e.symm).1 rfl
        | remove h => rename_i c'; exact h.2 _ fun e => (q c' e.symm).2 rfl
        | _ => rfl
    have hu : u c.id = some c := by rw [keep h5 hq]; exact hw
    cases h2 with
    | cons h6 _ =>
      have inv : ∀ {a b : Spec.ConnMgr.Mgr}, Spec.ConnMgr.Call a (.get c.id, .conn r) b → r = a c.id := by
        intro a b h; cases h; rfl
      rw [inv h6]; exact hu

/-- Two connections, the largest ID included. -/
example : ∃ s, Steps ConnMgr.Call newConnManager
    [(.add ⟨0, 7⟩, .unit), (.add ⟨1, 18446744073709551615⟩, .unit), (.len, .nat 2), (.get 18446744073709551615, .conn (some ⟨1, 18446744073709551615⟩)),
     (.remove ⟨0, 7⟩, .unit), (.get 7, .conn none)] s := by
  have key : ∀ (m : Shards Bytes Conn), m.get (formatUint (18446744073709551615 : UInt64).toNat) = some ⟨1, 18446744073709551615⟩ → m.count = 2 →
      (m.remove (Conn.idStr ⟨0, 7⟩)).get (formatUint (7 : UInt64).toNat) = none →
      ∃ s, Steps ConnMgr.Call m [(.len, .nat 2), (.get 18446744073709551615, .conn (some ⟨1, 18446744073709551615⟩)),
        (.remove ⟨0, 7⟩, .unit), (.get 7, .conn none)] s := by
    intro m h1 h2 h3
    rw [← h1, ← h2, ← h3]
    exact ⟨_, .cons (.len _) (.cons (.get _ _) (.cons (.remove _ _) (.cons (.get _ _) (.nil _))))⟩
  have w0 := mwf_new.wf
  have w1 := set_wf w0 (Conn.idStr ⟨0, 7⟩) ⟨0, 7⟩
  have w2 := set_wf w1 (Conn.idStr ⟨1, 18446744073709551615⟩) ⟨1, 18446744073709551615⟩
  obtain ⟨s, hs⟩ := key ((newConnManager.set (Conn.idStr ⟨0, 7⟩) ⟨0, 7⟩).set (Conn.idStr ⟨1, 18446744073709551615⟩) ⟨1, 18446744073709551615⟩)
    (by rw [get_set w1]; exact if_pos rfl) (by decide +kernel) (by rw [get_remove w2]; exact if_pos rfl)
  exact ⟨s, .cons (.add _ _) (.cons (.add _ _) hs)⟩

/-! ## C34 -/

/-- **C34 (calls).** After any history and in whatever order the connections are visited, the callback is called once per connection with its ID. -/
theorem C34_once_each_partial {ls : List (ConnMgr.Op × ConnMgr.Res)} {s : Shards Bytes Conn} (h : Steps ConnMgr.Call newConnManager ls s)
    {order : List (Bytes × Conn)} (hp : order.Perm s.entries) {E : Type} (cb : Nat → UInt64 → Conn → Option E) (cb2 : Nat → Bytes → Conn → Option E) :
    (∃ m, Steps Spec.ConnMgr.Call (fun _ => none) ls m ∧ ListsEntries m (range cb order).1) ∧
    (range2 cb2 order).1 = (range cb order).1.map fun x => (x.2.idStr, x.2) := by
  have hh := mcalls_spec mwf_new h
  have e : byId newConnManager = fun _ => none := by
    funext i; unfold byId newConnManager; exact create_get _ _ _
  rw [e] at hh
  obtain ⟨l, hl, eo⟩ := entries_byId hh.1.wf hh.1.dec hp
  have el : (range cb order).1 = l := by
    rw [range_eq, eo, List.map_map]
    have : ((fun x : Bytes × Conn => ((parseUint x.1).getD 0, x.2)) ∘ fun x : UInt64 × Conn => (formatUint x.1.toNat, x.2)) = id := by
      funext x
      simp [parse_format]
    rw [this, List.map_id]
  refine ⟨⟨_, hh.2, by rw [el]; exact hl⟩, ?_⟩
  rw [el, range2_eq, eo, List.map_map]
  rfl

/-- **C34 (result).** The result is what the callback answered for the connection visited last. So an error is never made up, and if every callback
fails the result is an error. Not proved, since false: an error whenever some callback fails. -/
theorem C34_result_partial {E : Type} (cb : Nat → UInt64 → Conn → Option E) (order : List (Bytes × Conn)) :
    (∀ e, (range cb order).2 = some e → ∃ i, ∃ x ∈ (range cb order).1, cb i x.1 x.2 = some e) ∧
    (order ≠ [] → (∀ i id c, cb i id c ≠ none) → (range cb order).2 ≠ none) := by
  rw [range_eq]
  cases hl : order.getLast? with
  | none =>
    refine ⟨by simp, ?_⟩
    intro hne
    rw [List.getLast?_eq_none_iff] at hl
    exact absurd hl hne
  | some x =>
    refine ⟨?_, fun _ hcb => hcb _ _ _⟩
    intro e he
    refine ⟨_, ((parseUint x.1).getD 0, x.2), ?_, he⟩
    rw [List.mem_map]
    exact ⟨x, List.mem_of_getLast? hl, rfl⟩

/-- **C34 refuted.** Two connections; the callback fails for connection 2 and not for connection 1; `Range` and `Range2` return nil. (Key "2"
is in shard 13 and key "1" in shard 14, so connection 2 is visited first and its error is overwritten.) -/
theorem C34_refuted : ∃ (ls : List (ConnMgr.Op × ConnMgr.Res)) (s : Shards Bytes Conn) (cb : Nat → UInt64 → Conn → Option Unit)
    (cb2 : Nat → Bytes → Conn → Option Unit), Steps ConnMgr.Call newConnManager ls s ∧
    (∃ i, ∃ x ∈ (range cb s.entries).1, cb i x.1 x.2 ≠ none) ∧ (range cb s.entries).1.length = 2 ∧ (range cb s.entries).2 = none ∧
    (range2 cb2 s.entries).2 = none ∧ cb2 0 [50] ⟨1, 2⟩ ≠ none := by
  refine ⟨_, _, fun _ id _ => if id = 2 then some () else none, fun _ id _ => if id = [50] then some () else none,
    .cons (.add _ ⟨0, 1⟩) (.cons (.add _ ⟨1, 2⟩) (.nil _)), ?_⟩
  have e : Shards.entries ((newConnManager.set (Conn.idStr ⟨0, 1⟩) ⟨0, 1⟩).set (Conn.idStr ⟨1, 2⟩) ⟨1, 2⟩) = [([50], ⟨1, 2⟩), ([49], ⟨0, 1⟩)] := by
    have i1 : Conn.idStr ⟨0, 1⟩ = [49] := by unfold Conn.idStr formatUint; rfl
    have i2 : Conn.idStr ⟨1, 2⟩ = [50] := by unfold Conn.idStr formatUint; rfl
    rw [i1, i2]
    decide +kernel
  have i1 : Conn.idStr ⟨0, 1⟩ = [49] := by unfold Conn.idStr formatUint; rfl
  have i2 : Conn.idStr ⟨1, 2⟩ = [50] := by unfold Conn.idStr formatUint; rfl
  rw [e]
  refine ⟨⟨0, (2, ⟨1, 2⟩), by decide, by decide⟩, by decide, by decide, ?_, by decide⟩
  rw [range2_eq]
  simp [i1]

/-! ## C65 -/

/-- Is it a broadcast? -/
def isBroadcast : NOp → Bool
  | .sendAll => true
  | _ => false

/-- **C65 (map and single sends).** Every history of calls of the notifier, without the broadcasts in it, is one of a map from IDs to connections
that ends with the same contents: last set wins until deleted, sending to an unknown ID fails, sending to a known ID sends once and reports
failure. -/
theorem C65_map_partial {ok : Nat → Bool} {ls : List (NOp × NRes)} {s : Shards Bytes Nat} (h : Steps (NCall ok) newNotify ls s) :
    Steps (Spec.ConnMgr.NCall ok) (fun _ => none) (ls.filter fun x => !isBroadcast x.1) (byId s) := by
  have e : byId newNotify = fun _ => none := by
    funext i; unfold byId newNotify; exact create_get _ _ _
  have gen : ∀ {s t : Shards Bytes Nat} {ls : List (NOp × NRes)}, Steps (NCall ok) s ls t → Wf s → DecKeys s →
      Steps (Spec.ConnMgr.NCall ok) (byId s) (ls.filter fun x => !isBroadcast x.1) (byId t) := by
    intro s t ls h
    induction h with
    | nil => intro _ _; exact .nil _
    | @cons s t u l ls h1 _ ih =>
      intro w d
      rw [List.filter_cons]
      by_cases b : l.1 = .sendAll
      · have st : t = s := by
          obtain ⟨o, r⟩ := l
          dsimp only at b
          subst b
          cases h1; rfl
        subst st
        rw [b]
        exact ih w d
      · obtain ⟨w', d', c⟩ := ncall_spec w d h1 fun e => absurd e b
        have nb : (!isBroadcast l.1) = true := by
          obtain ⟨o, r⟩ := l
          cases o <;> first | rfl | exact absurd rfl b
        rw [if_pos nb]
        exact .cons c (ih w' d')
  have := gen h (create_wf _ _ (by decide)) (create_decKeys _ _)
  rw [e] at this
  exact this

/-- **C65 (broadcast sends).** After any history a broadcast calls send once per registered ID on the connection registered under it, whatever
fails. Not proved, since false: that the result tells whether a send failed. -/
theorem C65_broadcast_partial {ok : Nat → Bool} {ls : List (NOp × NRes)} {s t : Shards Bytes Nat} (h : Steps (NCall ok) newNotify ls s)
    {to : List Nat} {failed : Bool} (hc : NCall ok s (.sendAll, .sent to failed) t) :
    t = s ∧ ∃ l : List (UInt64 × Nat), ListsEntries (byId s) l ∧ to = l.map (·.2) := by
  have w : Wf s ∧ DecKeys s := by
    refine Steps.invariant (P := fun s => Wf s ∧ DecKeys s) ?_ h ⟨create_wf _ _ (by decide), create_decKeys _ _⟩
    intro s l t hp hst
    cases hst with
    | set id c => exact ⟨set_wf hp.1 _ _, set_decKeys hp.1 hp.2 _ _⟩
    | del id => exact ⟨remove_wf hp.1 _, remove_decKeys hp.1 hp.2 _⟩
    | _ => exact hp
  cases hc with
  | sendAll order hp =>
    obtain ⟨l, hl, e⟩ := entries_byId w.1 w.2 hp
    refine ⟨rfl, l, hl, ?_⟩
    rw [e, List.map_map]; rfl

/-- **C65 refuted.** A broadcast to one connection whose send fails returns nil. -/
theorem C65_refuted : ∃ (ok : Nat → Bool) (ls : List (NOp × NRes)) (s : Shards Bytes Nat), Steps (NCall ok) newNotify ls s ∧
    ¬ ∃ m, Steps (Spec.ConnMgr.NCall ok) (fun _ => none) ls m := by
  have i1 : formatUint (1 : UInt64).toNat = [49] := by unfold formatUint; rfl
  refine ⟨fun _ => false, [(.set 1 5, .unit), (.sendAll, .sent [5] false)], _,
    .cons (.set _ 1 5) (.cons (.sendAll _ [([49], 5)] ?_) (.nil _)), ?_⟩
  · have : ([([49], 5)] : List (Bytes × Nat)) = (newNotify.set (formatUint (1 : UInt64).toNat) 5).entries := by rw [i1]; decide +kernel
    rw [← this]
  · rintro ⟨m, h⟩
    cases h with
    | cons h1 h2 =>
      cases h2 with
      | cons h3 _ =>
        have inv : ∀ {a b : Spec.ConnMgr.Notify}, Spec.ConnMgr.NCall (fun _ => false) a (.sendAll, .sent [5] false) b → False := by
          intro a b h
          generalize hx : (NOp.sendAll, NRes.sent [5] false) = x at h
          cases h with
          | sendAll hl hf =>
            rename_i l failed
            simp at hx
            obtain ⟨e1, e2⟩ := hx
            cases l with
            | nil => simp at e1
            | cons y l =>
              have := hf.mpr ⟨y, List.mem_cons_self, rfl⟩
              rw [e2] at this
              exact absurd this (by simp)
          | _ => simp at hx
        exact inv h3

/-- A history with overwriting, deleting, a send to an unknown ID and a broadcast. -/
example : ∃ s, Steps (NCall fun c => c != 4) newNotify
    [(.set 1 5, .unit), (.set 1 6, .unit), (.send 2, .sent [] true), (.send 1, .sent [6] false)] s := by
  have w0 : Wf newNotify := create_wf _ _ (by decide)
  have w1 := set_wf w0 (formatUint (1 : UInt64).toNat) 5
  have key : ∀ (m : Shards Bytes Nat), m.get (formatUint (1 : UInt64).toNat) = some 6 → m.get (formatUint (2 : UInt64).toNat) = none →
      ∃ s, Steps (NCall fun c => c != 4) m [(.send 2, .sent [] true), (.send 1, .sent [6] false)] s := by
    intro m h1 h2
    have a := NCall.send (ok := fun c => c != 4) m 2
    have b := NCall.send (ok := fun c => c != 4) m 1
    rw [h2] at a
    rw [h1] at b
    exact ⟨_, .cons a (.cons b (.nil _))⟩
  obtain ⟨s, hs⟩ := key ((newNotify.set (formatUint (1 : UInt64).toNat) 5).set (formatUint (1 : UInt64).toNat) 6)
    (by rw [get_set w1]; exact if_pos rfl) (by
      have ne : ¬ formatUint (2 : UInt64).toNat = formatUint (1 : UInt64).toNat := fun e => absurd (format_inj e) (by decide)
      rw [get_set w1, if_neg ne, get_set w0, if_neg ne]
      exact create_get _ _ _)
  exact ⟨s, .cons (.set _ _ _) (.cons (.set _ _ _) hs)⟩

end Zinx.Props
