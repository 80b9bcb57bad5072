import Verif.Props.AcceptRefuse

/-! # C33: how far the limit on connections can be exceeded -/

namespace Zinx.Props

open Zinx Zinx.ShardMap Zinx.ConnMgr Zinx.Accept

/-- At most `k` goroutines are between the start of the check and the addition of their connection. -/
def AtMostAtOnce (k : Nat) (s : State) : Prop := ∃ busy : List Nat, busy.length ≤ k ∧ ∀ t, s.thread t ≠ .idle → t ∈ busy

/-- Goroutine `t` passed the check, or its count misses more than `j` connections whatever it still reads. -/
def Late (j : Nat) (s : State) (t : Nat) : Prop := match s.thread t with
  | .idle => False
  | .counting i sum => sum + s.map.rest i + j + 1 ≤ s.map.count
  | .passed => True
  | .hasId _ => True

/-- Every connection above the limit costs one goroutine. -/
def BoundInv (maxConn k : Nat) (s : State) : Prop :=
  Wf s.map ∧ ∀ j, j + maxConn ≤ s.map.count → ∀ l : List Nat, l.Nodup → (∀ t ∈ l, Late j s t) → l.length + j + 1 ≤ k

theorem nodup_le : ∀ {l m : List Nat}, l.Nodup → (∀ x ∈ l, x ∈ m) → l.length ≤ m.length := by
  intro l
  induction l with
  | nil => intros; simp
  | cons a l ih =>
    intro m h hs
    have ha := hs a List.mem_cons_self
    have := ih (m := m.erase a) (List.nodup_cons.1 h).2 (by
      intro x hx
      have ne : x ≠ a := fun c => (List.nodup_cons.1 h).1 (c ▸ hx)
      exact (List.mem_erase_of_ne ne).2 (hs x (List.mem_cons_of_mem _ hx)))
    rw [List.length_erase_of_mem ha] at this
    have := List.length_pos_of_mem ha
    simp only [List.length_cons]
    omega

theorem late_goto {s : State} {t : Nat} {x : Thread} {j : Nat} (h : Late j (s.goto t x) t → Late j s t) :
    ∀ u, Late j (s.goto t x) u → Late j s u := by
  intro u hu
  by_cases e : u = t
  · subst e; exact h hu
  · unfold Late State.goto at hu
    simp only [e, ↓reduceIte] at hu
    exact hu

theorem bound_step {mode : Mode} {maxConn k : Nat} {s s' : State} {l : Act} (hq : AtMostAtOnce k s) (hp : BoundInv maxConn k s)
    (hs : Accept.Step mode maxConn s l s') : BoundInv maxConn k s' := by
  obtain ⟨w, h⟩ := hp
  have keep : ∀ t x, (∀ j, j + maxConn ≤ s.map.count → Late j (s.goto t x) t → Late j s t) → BoundInv maxConn k (s.goto t x) := by
    intro t x hx
    exact ⟨w, fun j hj l hl hlate => h j hj l hl fun u hu => late_goto (hx j hj) u (hlate u hu)⟩
  cases hs with
  | begin t hr ht =>
    refine keep t _ ?_
    intro j hj hl
    simp only [Late, State.goto, ↓reduceIte, rest_zero] at hl
    omega
  | visit t i sum ht hi =>
    refine keep t _ ?_
    intro j hj hl
    simp only [Late, State.goto, ↓reduceIte] at hl
    have := rest_next s.map hi
    simp only [Late, ht]
    omega
  | refuse t sum ht hm =>
    refine keep t _ ?_
    intro j hj hl
    simp [Late, State.goto] at hl
  | pass t sum ht hm =>
    refine keep t _ ?_
    intro j hj hl
    simp only [Late, ht, rest_end s.map (Nat.le_refl _)]
    omega
  | fail t ht =>
    refine keep t _ ?_
    intro j hj hl
    simp [Late, State.goto] at hl
  | newId t ht =>
    have := keep t (.hasId (s.cID + 1)) (by intro j hj hl; simp only [Late, ht])
    exact this
  | add t id handle ht =>
    have r := rest_set w (Conn.idStr ⟨handle, id⟩) ⟨handle, id⟩
    have r0 := r 0
    rw [rest_zero, rest_zero] at r0
    refine ⟨set_wf w _ _, ?_⟩
    intro j hj l hl hlate
    have hj : j + maxConn ≤ (s.map.set (Conn.idStr ⟨handle, id⟩) ⟨handle, id⟩).count := hj
    have tl : t ∉ l := by
      intro hc
      have := hlate t hc
      simp [Late, State.goto] at this
    have busy : ∀ u ∈ t :: l, s.thread u ≠ .idle := by
      intro u hu e
      rcases List.mem_cons.1 hu with rfl | hu
      · rw [ht] at e; cases e
      · have := hlate u hu
        have ne : u ≠ t := fun c => tl (c ▸ hu)
        simp [Late, State.goto, ne, e] at this
    cases j with
    | zero =>
      obtain ⟨b, hb, hb2⟩ := hq
      have := nodup_le (List.nodup_cons.2 ⟨tl, hl⟩) (fun u hu => hb2 u (busy u hu))
      simp only [List.length_cons] at this
      omega
    | succ j =>
      have := h j (by omega) (t :: l) (List.nodup_cons.2 ⟨tl, hl⟩) ?_
      · simp only [List.length_cons] at this
        omega
      · intro u hu
        rcases List.mem_cons.1 hu with rfl | hu
        · simp only [Late, ht]
        · have hu' := hlate u hu
          have ne : u ≠ t := fun c => tl (c ▸ hu)
          unfold Late at hu' ⊢
          simp only [State.goto, ne, ↓reduceIte] at hu'
          cases hx : s.thread u with
          | idle => rw [hx] at hu'; exact hu'
          | counting i sum =>
            rw [hx] at hu'
            dsimp only at hu' ⊢
            have := r i
            omega
          | passed => trivial
          | hasId _ => trivial
  | remove c =>
    have r := rest_remove w c.idStr 0
    rw [rest_zero, rest_zero] at r
    refine ⟨remove_wf w _, ?_⟩
    intro j hj l hl hlate
    have hj : j + maxConn ≤ (s.map.remove c.idStr).count := hj
    refine h j (by omega) l hl fun u hu => ?_
    have hu' := hlate u hu
    unfold Late at hu' ⊢
    dsimp only at hu'
    cases hx : s.thread u with
    | idle => rw [hx] at hu'; exact hu'
    | counting i sum =>
      rw [hx] at hu'
      dsimp only at hu' ⊢
      have a := remove_rest w c.idStr (sum := s.map.count - s.map.rest i) (i := i) (by omega)
      have b := rest_remove w c.idStr i
      by_cases g : s.map.rest i ≤ s.map.count
      · omega
      · omega
    | passed => trivial
    | hasId _ => trivial

/-- **C33 (how far).** In every mode: if at every moment at most `k` goroutines are between the start of the check and the addition of their
connection, there are never more than `maxConn + k - 1` connections. -/
theorem C33_bound_partial {mode : Mode} {maxConn k : Nat} (hk : 0 < k) {ls : List Act} {s : State}
    (h : StepsAll (Accept.Step mode maxConn) (AtMostAtOnce k) initial ls s) : s.map.count ≤ maxConn + k - 1 := by
  have inv := StepsAll.invariant (P := BoundInv maxConn k) (fun s l t hq hp hs => bound_step hq hp hs) h
    ⟨mwf_new.wf, by
      intro j hj l hl hlate
      have c0 : newConnManager.count = 0 := by decide +kernel
      have hj : j + maxConn ≤ newConnManager.count := hj
      cases l with
      | nil => simp only [List.length_nil]; omega
      | cons t l => have := hlate t List.mem_cons_self; simp [Late, initial] at this⟩
  by_cases g : maxConn ≤ s.map.count
  · have := inv.2 (s.map.count - maxConn) (by omega) [] List.nodup_nil (by simp)
    simp only [List.length_nil] at this
    omega
  · omega

/-! ## The bound is reached -/

/-- Goroutines outside `1 … k` do nothing. -/
def Only (k : Nat) (s : State) : Prop := ∀ t, s.thread t ≠ .idle → 1 ≤ t ∧ t ≤ k

theorem only_few {k : Nat} {s : State} (h : Only k s) : AtMostAtOnce k s :=
  ⟨(List.range k).map (· + 1), by simp, fun t ht => by
    have := h t ht
    exact List.mem_map.2 ⟨t - 1, List.mem_range.2 (by omega), by omega⟩⟩

theorem only_goto {k : Nat} {s : State} (h : Only k s) {t : Nat} (h1 : 1 ≤ t) (h2 : t ≤ k) (x : Thread) : Only k (s.goto t x) := by
  intro u hu
  by_cases e : u = t
  · subst e; exact ⟨h1, h2⟩
  · exact h u (by simpa [State.goto, e] using hu)

theorem visits_few {mode : Mode} {maxConn k : Nat} {t : Nat} (h1 : 1 ≤ t) (h2 : t ≤ k) (d : Nat) : ∀ (s : State) (i sum : Nat), Only k s →
    s.thread t = .counting i sum → i + d = s.map.shards.length →
    ∃ ls, StepsAll (Accept.Step mode maxConn) (AtMostAtOnce k) s ls (s.goto t (.counting s.map.shards.length (sum + s.map.rest i))) := by
  induction d with
  | zero =>
    intro s i sum ho h hd
    refine ⟨[], ?_⟩
    rw [rest_end s.map (by omega), Nat.add_zero, show s.map.shards.length = i by omega, goto_self h]
    exact .nil (only_few ho)
  | succ d ih =>
    intro s i sum ho h hd
    have hi : i < s.map.shards.length := by omega
    obtain ⟨ls, hl⟩ := ih (s.goto t (.counting (i + 1) (sum + (s.map.shard i).length))) (i + 1) (sum + (s.map.shard i).length)
      (only_goto ho h1 h2 _) (by simp [State.goto]) (by show i + 1 + d = s.map.shards.length; omega)
    rw [goto_goto] at hl
    refine ⟨.visit t :: ls, .cons (only_few ho) (.visit _ t i sum h hi) ?_⟩
    have r := rest_next s.map hi
    have : sum + s.map.rest i = sum + (s.map.shard i).length + s.map.rest (i + 1) := by omega
    rw [this]
    exact hl

theorem passes_few {mode : Mode} {maxConn k : Nat} {t : Nat} (h1 : 1 ≤ t) (h2 : t ≤ k) {s : State} (ho : Only k s) (hr : mode.runs t)
    (h : s.thread t = .idle) (hc : s.map.count < maxConn) :
    ∃ ls, StepsAll (Accept.Step mode maxConn) (AtMostAtOnce k) s ls (s.goto t .passed) := by
  obtain ⟨ls, hl⟩ := visits_few (mode := mode) (maxConn := maxConn) h1 h2 s.map.shards.length (s.goto t (.counting 0 0)) 0 0
    (only_goto ho h1 h2 _) (by simp [State.goto]) (by show 0 + s.map.shards.length = s.map.shards.length; omega)
  rw [goto_goto] at hl
  have p := Accept.Step.pass (mode := mode) (maxConn := maxConn) (s.goto t (.counting s.map.shards.length (0 + s.map.rest 0))) t (0 + s.map.rest 0)
    (by simp [State.goto]) (by rw [rest_zero]; omega)
  rw [goto_goto] at p
  have hl : StepsAll (Accept.Step mode maxConn) (AtMostAtOnce k) (s.goto t (.counting 0 0)) ls
    (s.goto t (.counting s.map.shards.length (0 + s.map.rest 0))) := hl
  exact ⟨.begin t :: (ls ++ [.pass t]), .cons (only_few ho) (.begin s t hr h)
    (stepsAll_append hl (.cons (only_few (only_goto ho h1 h2 _)) p (.nil (only_few (only_goto ho h1 h2 _)))))⟩

/-- `n` connections with the IDs `1 … n`. -/
def Filled (n : Nat) (s : State) : Prop :=
  Wf s.map ∧ s.map.count = n ∧ s.cID.toNat = n ∧ ∀ m, n < m → s.map.get (formatUint m) = none

theorem count_fresh {m : Shards Bytes Conn} (w : Wf m) {k : Bytes} (h : m.get k = none) (v : Conn) : (m.set k v).count = m.count + 1 := by
  have hj := Wf.index_lt w.size k
  obtain ⟨_, b⟩ := rest_put m 0 (assign (m.shard (m.index k)) k v) hj
  have b := b (Nat.zero_le _)
  rw [rest_zero, rest_zero] at b
  have e : delete (m.shard (m.index k)) k = m.shard (m.index k) := by
    unfold delete
    rw [List.filter_eq_self]
    intro x hx
    have : lookup (m.shard (m.index k)) k = none := h
    unfold lookup at this
    rw [Option.map_eq_none_iff, List.find?_eq_none] at this
    simpa using this x hx
  have l : (assign (m.shard (m.index k)) k v).length = (m.shard (m.index k)).length + 1 := by
    unfold assign; rw [e]; rfl
  unfold Shards.set
  omega

theorem adds_few {mode : Mode} {maxConn k n : Nat} {t : Nat} (h1 : 1 ≤ t) (h2 : t ≤ k) {s : State} (ho : Only k s)
    (h : s.thread t = .passed) (hf : Filled n s) (hn : n + 1 < 2 ^ 64) :
    ∃ ls s', StepsAll (Accept.Step mode maxConn) (AtMostAtOnce k) s ls s' ∧ Filled (n + 1) s' ∧ s'.thread = (s.goto t .idle).thread := by
  obtain ⟨w, c, i, g⟩ := hf
  have e : (s.cID + 1).toNat = n + 1 := by rw [UInt64.toNat_add, i]; show (n + 1) % 2 ^ 64 = n + 1; omega
  refine ⟨_, _, .cons (only_few ho) (.newId s t h) (.cons (only_few (only_goto ho h1 h2 _)) (.add _ t (s.cID + 1) 0 (by simp [State.goto]))
    (.nil (only_few (s := State.goto _ t .idle) (only_goto (only_goto ho h1 h2 _) h1 h2 _)))), ⟨set_wf w _ _, ?_, e, ?_⟩, ?_⟩
  · have k0 : Conn.idStr ⟨0, s.cID + 1⟩ = formatUint (n + 1) := by unfold Conn.idStr; rw [e]
    show (s.map.set (Conn.idStr ⟨0, s.cID + 1⟩) ⟨0, s.cID + 1⟩).count = n + 1
    rw [k0, count_fresh w (g _ (by omega)), c]
  · intro m hm
    have k0 : Conn.idStr ⟨0, s.cID + 1⟩ = formatUint (n + 1) := by unfold Conn.idStr; rw [e]
    show (s.map.set (Conn.idStr ⟨0, s.cID + 1⟩) ⟨0, s.cID + 1⟩).get (formatUint m) = none
    rw [k0, get_set w, if_neg, g m (by omega)]
    intro q
    have := congrArg (List.foldl (fun n (b : UInt8) => n * 10 + (b.toNat - 48)) 0) q
    rw [formatUint_value, formatUint_value] at this
    omega
  · funext u
    by_cases q : u = t <;> simp [State.goto, q]

/-- One goroutine after the other fills the server up to `n` connections. -/
theorem fills {mode : Mode} {maxConn k : Nat} (hk : 0 < k) (hr : mode.runs 1) : ∀ n, n ≤ maxConn → n < 2 ^ 64 →
    ∃ ls s, StepsAll (Accept.Step mode maxConn) (AtMostAtOnce k) initial ls s ∧ Filled n s ∧ ∀ t, s.thread t = .idle := by
  intro n
  induction n with
  | zero =>
    intro _ _
    have c0 : newConnManager.count = 0 := by decide +kernel
    refine ⟨[], initial, .nil ⟨[], by simp, by simp [initial]⟩, ⟨mwf_new.wf, c0, rfl, ?_⟩, fun _ => rfl⟩
    intro m _
    exact create_get _ _ _
  | succ n ih =>
    intro h1 h2
    obtain ⟨ls, s, hs, hf, hi⟩ := ih (by omega) (by omega)
    have ho : Only k s := fun t ht => absurd (hi t) ht
    obtain ⟨la, ha⟩ := passes_few (mode := mode) (maxConn := maxConn) (k := k) (t := 1) (by omega) hk ho hr (hi 1) (by rw [hf.2.1]; omega)
    obtain ⟨lb, s', hb, hf', ht⟩ := adds_few (mode := mode) (maxConn := maxConn) (k := k) (t := 1) (n := n) (s := s.goto 1 .passed) (by omega) hk
      (only_goto ho (by omega) hk _) (by simp [State.goto]) hf h2
    refine ⟨_, s', stepsAll_append (stepsAll_append hs ha) hb, hf', ?_⟩
    intro t
    rw [ht]
    by_cases q : t = 1 <;> simp [State.goto, q, hi]

/-- Goroutines `1 … j` pass the check. -/
theorem all_pass {mode : Mode} {maxConn k n : Nat} (hr : ∀ t, 1 ≤ t → mode.runs t) {s : State} (hf : Filled n s) (hi : ∀ t, s.thread t = .idle)
    (hn : n < maxConn) : ∀ j, j ≤ k → ∃ ls s', StepsAll (Accept.Step mode maxConn) (AtMostAtOnce k) s ls s' ∧ Filled n s' ∧
      ∀ t, s'.thread t = if 1 ≤ t ∧ t ≤ j then .passed else .idle := by
  intro j
  induction j with
  | zero =>
    intro _
    refine ⟨[], s, .nil (only_few fun t ht => absurd (hi t) ht), hf, fun t => ?_⟩
    rw [if_neg (by omega), hi]
  | succ j ih =>
    intro hj
    obtain ⟨ls, s', hs, hf', ht⟩ := ih (by omega)
    have ho : Only k s' := by
      intro t hh
      rw [ht t] at hh
      by_cases q : 1 ≤ t ∧ t ≤ j
      · omega
      · rw [if_neg q] at hh; exact absurd rfl hh
    obtain ⟨la, ha⟩ := passes_few (mode := mode) (maxConn := maxConn) (k := k) (t := j + 1) (by omega) hj ho (hr _ (by omega))
      (by rw [ht, if_neg (by omega)]) (by rw [hf'.2.1]; exact hn)
    refine ⟨_, _, stepsAll_append hs ha, hf', ?_⟩
    intro t
    by_cases q : t = j + 1
    · subst q; simp [State.goto]
    · simp only [State.goto, q, ↓reduceIte, ht]
      congr 1
      exact propext ⟨fun x => by omega, fun x => by omega⟩

/-- Goroutines `1 … j` add their connections. -/
theorem all_add {mode : Mode} {maxConn k n : Nat} {s : State} (hf : Filled n s) (ht : ∀ t, s.thread t = if 1 ≤ t ∧ t ≤ k then .passed else .idle)
    (hn : n + k < 2 ^ 64) : ∀ j, j ≤ k → ∃ ls s', StepsAll (Accept.Step mode maxConn) (AtMostAtOnce k) s ls s' ∧ Filled (n + j) s' ∧
      ∀ t, s'.thread t = if j < t ∧ t ≤ k then .passed else .idle := by
  have few : ∀ (s' : State) (j : Nat), (∀ t, s'.thread t = if j < t ∧ t ≤ k then .passed else .idle) → Only k s' := by
    intro s' j h t hh
    rw [h t] at hh
    by_cases q : j < t ∧ t ≤ k
    · omega
    · rw [if_neg q] at hh; exact absurd rfl hh
  intro j
  induction j with
  | zero => intro _; exact ⟨[], s, .nil (only_few (few s 0 ht)), hf, ht⟩
  | succ j ih =>
    intro hj
    obtain ⟨ls, s', hs, hf', ht'⟩ := ih (by omega)
    obtain ⟨lb, s2, hb, hf2, h2⟩ := adds_few (mode := mode) (maxConn := maxConn) (k := k) (t := j + 1) (n := n + j) (s := s') (by omega) hj
      (few s' j ht') (by rw [ht', if_pos (by omega)]) hf' (by omega)
    refine ⟨_, s2, stepsAll_append hs hb, hf2, ?_⟩
    intro t
    rw [h2]
    by_cases q : t = j + 1
    · subst q; simp [State.goto]
    · simp only [State.goto, q, ↓reduceIte, ht']
      congr 1
      exact propext ⟨fun x => by omega, fun x => by omega⟩

/-- **C33 refuted (for every number of requests).** Where requests are checked concurrently (WebSocket, or both listeners), `k` requests at a time do
reach `maxConn + k - 1` connections: the bound of `C33_bound_partial` is the best possible. -/
theorem C33_refuted_sharp {mode : Mode} (hm : mode = .websocket ∨ mode = .both) {maxConn k : Nat} (hk : 0 < k) (hc : 0 < maxConn)
    (hb : maxConn + k ≤ 2 ^ 64) :
    ∃ ls s, StepsAll (Accept.Step mode maxConn) (AtMostAtOnce k) initial ls s ∧ s.map.count = maxConn + k - 1 := by
  have hr : ∀ t, 1 ≤ t → mode.runs t := by
    intro t ht
    rcases hm with rfl | rfl
    · show t ≠ 0; omega
    · trivial
  obtain ⟨la, s, hs, hf, hi⟩ := fills (mode := mode) (maxConn := maxConn) hk (hr 1 (by omega)) (maxConn - 1) (by omega) (by omega)
  obtain ⟨lb, s2, hs2, hf2, ht2⟩ := all_pass (mode := mode) (maxConn := maxConn) (k := k) hr hf hi (by omega) k (Nat.le_refl _)
  obtain ⟨lc, s3, hs3, hf3, _⟩ := all_add (mode := mode) (maxConn := maxConn) (k := k) hf2 ht2 (by omega) k (Nat.le_refl _)
  exact ⟨_, s3, stepsAll_append (stepsAll_append hs hs2) hs3, by rw [hf3.2.1]; omega⟩

/-- Five requests at a time on a server with a limit of 3 meet the hypotheses of `C33_bound_partial`, and reach its bound of 7. -/
example : ∃ ls s, StepsAll (Accept.Step .websocket 3) (AtMostAtOnce 5) initial ls s ∧ s.map.count = 7 :=
  C33_refuted_sharp (.inl rfl) (by decide) (by decide) (by decide)

end Zinx.Props
