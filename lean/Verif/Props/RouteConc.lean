import Verif.Model.RouteConc

/-! # C87: adding routes while messages are handled -/

namespace Zinx.Props

open Zinx.RouteConc

variable {H : Type}

/-- Which calls are going on. -/
def callsNext (f : Nat → Option (RouteConc.Op H)) : RouteConc.Label H → Nat → Option (RouteConc.Op H)
  | .call i op => fun j => if j = i then some op else f j
  | .ret i _ _ => fun j => if j = i then none else f j
  | _ => f

def callsOpen (ls : List (RouteConc.Label H)) : Nat → Option (RouteConc.Op H) := ls.foldl callsNext fun _ => none

/-- The routes whose registration has returned. -/
def routesNext (r : UInt32 → Option (List H)) : RouteConc.Label H → UInt32 → Option (List H)
  | .ret _ (.add id hs) .added => fun k => if k = id then some hs else r k
  | _ => r

def routesOf (ls : List (RouteConc.Label H)) : UInt32 → Option (List H) := ls.foldl routesNext fun _ => none

/-- Whenever a registration is going on, it is the only call. -/
def AddsAlone (ls : List (RouteConc.Label H)) : Prop :=
  ∀ pre, pre <+: ls → ∀ i j id hs, i ≠ j → callsOpen pre i = some (.add id hs) → callsOpen pre j = none

/-- What is true of a goroutine. -/
def routePc (r : UInt32 → Option (List H)) (m : UInt32 → Option (List H)) (o : Option (RouteConc.Op H)) : RouteConc.Pc H → Prop
  | .idle => o = none
  | .start op | .look op => o = some op
  | .seen op v => o = some op ∧ v = m op.id
  | .look2 id hs => o = some (.add id hs) ∧ m id = none
  | .seen2 id hs v => o = some (.add id hs) ∧ m id = none ∧ v = none
  | .put id hs v | .write id hs v => o = some (.add id hs) ∧ m id = none ∧ v = hs
  | .leave (.add id hs) .added => o = some (.add id hs) ∧ r id = none ∧ m = fun k => if k = id then some hs else r k
  | .leave (.add id hs) .refused => o = some (.add id hs) ∧ r id ≠ none
  | .leave (.lookup id) (.found v) => o = some (.lookup id) ∧ v = r id
  | .leave _ _ => False

/-- A registration has taken effect and not returned. -/
def routeAdded : RouteConc.Pc H → Bool
  | .leave (.add _ _) .added => true
  | _ => false

structure RouteInv (o : Nat → Option (RouteConc.Op H)) (r : UInt32 → Option (List H)) (s : RouteConc.State H) : Prop where
  pc : ∀ i, routePc r s.map (o i) (s.pc i)
  map : (∀ i, routeAdded (s.pc i) = false) → s.map = r
  alone : ∀ i j id hs, i ≠ j → o i = some (.add id hs) → o j = none

theorem routePc_idle {o : Option (RouteConc.Op H)} {r m : UInt32 → Option (List H)} {p : RouteConc.Pc H} (h : routePc r m o p) : o = none ↔ p = .idle := by
  cases p <;> simp_all [routePc] <;> grind [routePc]

theorem routePc_added {o : Option (RouteConc.Op H)} {r m : UInt32 → Option (List H)} {p : RouteConc.Pc H} (h : routePc r m o p) (ha : routeAdded p = true) : ∃ id hs, o = some (.add id hs) := by
  cases p <;> simp_all [routePc, routeAdded] <;> grind [routePc, routeAdded]

/-- A goroutine goes on and the map stays. -/
theorem routeInv_keep {o : Nat → Option (RouteConc.Op H)} {r : UInt32 → Option (List H)} {s : RouteConc.State H} (h : RouteInv o r s) (i : Nat) {q : RouteConc.Pc H} (h1 : routeAdded (s.pc i) = false)
    (hq : routePc r s.map (o i) q) : RouteInv o r { s with pc := RouteConc.set s.pc i q } := by
  obtain ⟨k1, k2, k3⟩ := h
  refine ⟨fun j => ?_, fun hm => k2 fun j => ?_, k3⟩
  · by_cases hj : j = i
    · subst hj; simpa [RouteConc.set] using hq
    · simpa [RouteConc.set, hj] using k1 j
  · have := hm j
    by_cases hj : j = i
    · subst hj; exact h1
    · simpa [RouteConc.set, hj] using this

theorem routeInv_step {slices : Bool} {o : Nat → Option (RouteConc.Op H)} {r : UInt32 → Option (List H)} {s t : RouteConc.State H} {l : RouteConc.Label H} (h : RouteInv o r s)
    (ha : ∀ i j id hs, i ≠ j → callsNext o l i = some (.add id hs) → callsNext o l j = none) (hs : RouteConc.Step H slices s l t) :
    RouteInv (callsNext o l) (routesNext r l) t ∧ l ≠ .fatal := by
  have hidle := fun i => routePc_idle (h.pc i)
  -- who adds is alone
  have hnone : ∀ i id hs, o i = some (.add id hs) → ∀ j, j ≠ i → s.pc j = .idle := fun i id hs hi j hj => (hidle j).1 (h.alone i j id hs (Ne.symm hj) hi)
  cases hs
  case clash i j id hs v hne hi hj =>
    have := h.pc i
    rw [hi] at this
    rw [hnone i id hs this.1 j (Ne.symm hne)] at hj
    cases hj
  case call i op hi =>
    refine ⟨⟨fun j => ?_, fun hm => h.map fun j => ?_, ha⟩, nofun⟩
    · have := h.pc j
      by_cases hj : j = i
      · subst hj; simp [RouteConc.set, callsNext, routePc]
      · simpa [RouteConc.set, hj, callsNext, routesNext] using this
    · have := hm j
      by_cases hj : j = i
      · subst hj; rw [hi]; rfl
      · simpa [RouteConc.set, hj] using this
  case look i op hi =>
    have := h.pc i
    rw [hi] at this
    exact ⟨routeInv_keep h i (by rw [hi]; rfl) this, nofun⟩
  case seen i op hi =>
    have := h.pc i
    rw [hi] at this
    exact ⟨routeInv_keep h i (by rw [hi]; rfl) ⟨this, rfl⟩, nofun⟩
  case repeated i id hs v hi =>
    have := h.pc i
    rw [hi] at this
    refine ⟨routeInv_keep h i (by rw [hi]; rfl) ⟨this.1, ?_⟩, nofun⟩
    have hm : s.map = r := h.map fun j => by
      by_cases hj : j = i
      · subst hj; rw [hi]; rfl
      · rw [hnone i id hs this.1 j hj]; rfl
    rw [← hm, show s.map id = some v from this.2.symm]
    nofun
  case found i id v hi =>
    have := h.pc i
    rw [hi] at this
    refine ⟨routeInv_keep h i (by rw [hi]; rfl) ⟨this.1, ?_⟩, nofun⟩
    have hm : s.map = r := h.map fun j => by
      cases hj : routeAdded (s.pc j) with
      | false => rfl
      | true =>
        obtain ⟨id', hs, hx⟩ := routePc_added (h.pc j) hj
        by_cases hji : j = i
        · subst hji; rw [this.1] at hx; cases hx
        · rw [h.alone j i id' hs hji hx] at this
          exact absurd this.1 nofun
    rw [this.2, hm]
    rfl
  case plain i id hs hi hsl =>
    have := h.pc i
    rw [hi] at this
    exact ⟨routeInv_keep h i (by rw [hi]; rfl) ⟨this.1, this.2.symm, rfl⟩, nofun⟩
  case look2 i id hs hi hsl =>
    have := h.pc i
    rw [hi] at this
    exact ⟨routeInv_keep h i (by rw [hi]; rfl) ⟨this.1, this.2.symm⟩, nofun⟩
  case seen2 i id hs hi =>
    have := h.pc i
    rw [hi] at this
    exact ⟨routeInv_keep h i (by rw [hi]; rfl) ⟨this.1, this.2, this.2⟩, nofun⟩
  case append i id hs v hi =>
    have := h.pc i
    rw [hi] at this
    exact ⟨routeInv_keep h i (by rw [hi]; rfl) ⟨this.1, this.2.1, by rw [this.2.2]; rfl⟩, nofun⟩
  case write i id hs v hi =>
    have := h.pc i
    rw [hi] at this
    exact ⟨routeInv_keep h i (by rw [hi]; rfl) this, nofun⟩
  case written i id hs v hi =>
    have := h.pc i
    rw [hi] at this
    obtain ⟨g1, g2, rfl⟩ := this
    have hm : s.map = r := h.map fun j => by
      by_cases hj : j = i
      · subst hj; rw [hi]; rfl
      · rw [hnone i id v g1 j hj]; rfl
    refine ⟨⟨fun j => ?_, fun hx => ?_, ha⟩, nofun⟩
    · by_cases hj : j = i
      · subst hj
        simp only [RouteConc.set, if_true]
        exact ⟨g1, hm ▸ g2, by rw [hm]; rfl⟩
      · simp only [RouteConc.set, if_neg hj]
        rw [hnone i id v g1 j hj]
        exact h.alone i j id v (Ne.symm hj) g1
    · have := hx i
      simp [RouteConc.set, routeAdded] at this
  case ret i op res hi =>
    have := h.pc i
    rw [hi] at this
    by_cases hadd : ∃ id hs, op = .add id hs ∧ res = .added
    · obtain ⟨id, hs, rfl, rfl⟩ := hadd
      obtain ⟨g1, _, g3⟩ := this
      refine ⟨⟨fun j => ?_, fun _ => g3, ha⟩, nofun⟩
      by_cases hj : j = i
      · subst hj; simp [RouteConc.set, callsNext, routePc]
      · simp only [RouteConc.set, callsNext, if_neg hj]
        rw [hnone i id hs g1 j hj]
        exact h.alone i j id hs (Ne.symm hj) g1
    · have hr : routesNext r (.ret i op res) = r := by
        cases op <;> cases res <;> first | rfl | exact absurd ⟨_, _, rfl, rfl⟩ hadd
      rw [hr]
      refine ⟨⟨fun j => ?_, fun hm => h.map fun j => ?_, ha⟩, nofun⟩
      · by_cases hj : j = i
        · subst hj; simp [RouteConc.set, callsNext, routePc]
        · simpa only [RouteConc.set, callsNext, if_neg hj] using h.pc j
      · have hx := hm j
        by_cases hj : j = i
        · subst hj
          rw [hi]
          cases op <;> cases res <;> first | rfl | exact absurd ⟨_, _, rfl, rfl⟩ hadd
        · simpa [RouteConc.set, hj] using hx

theorem AddsAlone.prefix {ls ks : List (RouteConc.Label H)} (h : AddsAlone (ls ++ ks)) : AddsAlone ls := fun pre hp => h pre (hp.trans (List.prefix_append _ _))

theorem routeInv {slices : Bool} {ls : List (RouteConc.Label H)} {t : RouteConc.State H} (h : Steps (RouteConc.Step H slices) {} ls t) (ha : AddsAlone ls) :
    RouteInv (callsOpen ls) (routesOf ls) t ∧ .fatal ∉ ls := by
  refine h.invariant_trace (P := fun ls s => AddsAlone ls → RouteInv (callsOpen ls) (routesOf ls) s ∧ .fatal ∉ ls) ?_ ?_ ha
  · intro ls s l t ih hs ha
    obtain ⟨h1, h2⟩ := ih ha.prefix
    have e1 : callsOpen (ls ++ [l]) = callsNext (callsOpen ls) l := by simp [callsOpen]
    have e2 : routesOf (ls ++ [l]) = routesNext (routesOf ls) l := by simp [routesOf]
    have := ha (ls ++ [l]) (List.prefix_refl _)
    rw [e1] at this
    obtain ⟨h3, h4⟩ := routeInv_step h1 this hs
    rw [e1, e2]
    refine ⟨h3, fun hm => ?_⟩
    rcases List.mem_append.1 hm with hm | hm
    · exact h2 hm
    · exact h4 (List.mem_singleton.1 hm).symm
  · intro _
    exact ⟨⟨fun i => rfl, fun _ => rfl, fun i j id hs _ h => by cases h⟩, nofun⟩

/-- **C87** (partial: if a registration is the only call while it goes on): the process does not end; a lookup gives the handlers that were registered for the ID, all of them and in order, or nothing if
none were; a registration is refused if and only if the ID has a route. -/
theorem C87_partial (slices : Bool) (ls : List (RouteConc.Label H)) (t : RouteConc.State H) (h : Steps (RouteConc.Step H slices) {} ls t) (ha : AddsAlone ls) :
    .fatal ∉ ls ∧ ∀ a b i op res, ls = a ++ .ret i op res :: b →
      match op, res with
      | .lookup id, .found v => v = routesOf a id
      | .add id _, .added => routesOf a id = none
      | .add id _, .refused => routesOf a id ≠ none
      | _, _ => False := by
  refine ⟨(routeInv h ha).2, ?_⟩
  rintro a b i op res rfl
  obtain ⟨u, h1, h2⟩ := h.split
  have hi := (routeInv h1 ha.prefix).1.pc i
  cases h2 with
  | cons hs _ =>
    cases hs with
    | ret i op res hp =>
      rw [hp] at hi
      cases op <;> cases res <;> first | exact hi.elim | exact hi.2 | exact hi.2.1

/-- The same, action by action. -/
def aloneFrom (o : Nat → Option (RouteConc.Op H)) : List (RouteConc.Label H) → Prop
  | [] => ∀ i j id hs, i ≠ j → o i = some (.add id hs) → o j = none
  | l :: ls => (∀ i j id hs, i ≠ j → o i = some (.add id hs) → o j = none) ∧ aloneFrom (callsNext o l) ls

theorem aloneFrom_prefix {o : Nat → Option (RouteConc.Op H)} {ls : List (RouteConc.Label H)} (h : aloneFrom o ls) (pre : List (RouteConc.Label H)) (hp : pre <+: ls) :
    ∀ i j id hs, i ≠ j → pre.foldl callsNext o i = some (.add id hs) → pre.foldl callsNext o j = none := by
  induction ls generalizing o pre with
  | nil => rw [List.prefix_nil.1 hp]; exact h
  | cons l ls ih =>
    cases pre with
    | nil => exact h.1
    | cons l' pre =>
      obtain ⟨rfl, hp'⟩ := List.cons_prefix_cons.1 hp
      exact ih h.2 pre hp'

/-- A route is added, then looked up while another goroutine looks up, then added again. -/
example : ∃ ls t, Steps (RouteConc.Step Nat true) {} ls t ∧ AddsAlone ls ∧ .ret 0 (.add 7 [3, 4]) .added ∈ ls ∧ .ret 1 (.lookup 7) (.found (some [3, 4])) ∈ ls ∧
    .ret 2 (.lookup 8) (.found none) ∈ ls ∧ .ret 2 (.add 7 [5]) .refused ∈ ls := by
  refine ⟨_, _, .cons (.call _ 0 (.add 7 [3, 4]) rfl) (.cons (.look _ 0 _ rfl) (.cons (.seen _ 0 _ rfl) (.cons (.look2 _ 0 7 [3, 4] rfl rfl) (.cons (.seen2 _ 0 7 [3, 4] rfl)
    (.cons (.append _ 0 7 [3, 4] none rfl) (.cons (.write _ 0 7 [3, 4] [3, 4] rfl) (.cons (.written _ 0 7 [3, 4] [3, 4] rfl) (.cons (.ret _ 0 _ _ rfl)
    (.cons (.call _ 1 (.lookup 7) rfl) (.cons (.call _ 2 (.lookup 8) rfl) (.cons (.look _ 1 _ rfl) (.cons (.look _ 2 _ rfl) (.cons (.seen _ 1 _ rfl) (.cons (.seen _ 2 _ rfl)
    (.cons (.found _ 1 7 (some [3, 4]) rfl) (.cons (.found _ 2 8 none rfl) (.cons (.ret _ 1 _ _ rfl) (.cons (.ret _ 2 _ _ rfl)
    (.cons (.call _ 2 (.add 7 [5]) rfl) (.cons (.look _ 2 _ rfl) (.cons (.seen _ 2 _ rfl) (.cons (.repeated _ 2 7 [5] [3, 4] rfl) (.cons (.ret _ 2 _ _ rfl) (.nil _)))))))))))))))))))))))),
    aloneFrom_prefix ?_, by simp, by simp, by simp, by simp⟩
  simp only [aloneFrom, callsNext]
  refine ⟨?_, ?_, ?_, ?_, ?_, ?_, ?_, ?_, ?_, ?_, ?_, ?_, ?_, ?_, ?_, ?_, ?_, ?_, ?_, ?_, ?_, ?_, ?_, ?_, ?_⟩ <;> grind

/-- **C87 is false of the code**: a route is added while a message of another ID is handled, and the process ends. -/
theorem C87_refuted (slices : Bool) : ∃ ls t, Steps (RouteConc.Step Nat slices) {} ls t ∧ .call 0 (.add 1 [1]) ∈ ls ∧ .call 1 (.lookup 2) ∈ ls ∧ (∀ i op, .call i op ∈ ls → i = 0 ∨ i = 1) ∧ .fatal ∈ ls := by
  cases slices with
  | false =>
    exact ⟨_, _, .cons (.call _ 0 (.add 1 [1]) rfl) (.cons (.look _ 0 _ rfl) (.cons (.seen _ 0 _ rfl) (.cons (.plain _ 0 1 [1] rfl rfl) (.cons (.write _ 0 1 [1] [1] rfl)
      (.cons (.call _ 1 (.lookup 2) rfl) (.cons (.look _ 1 _ rfl) (.cons (.clash _ 0 1 1 [1] [1] (by decide) rfl rfl) (.nil _)))))))), by simp, by simp, by simp; grind, by simp⟩
  | true =>
    exact ⟨_, _, .cons (.call _ 0 (.add 1 [1]) rfl) (.cons (.look _ 0 _ rfl) (.cons (.seen _ 0 _ rfl) (.cons (.look2 _ 0 1 [1] rfl rfl) (.cons (.seen2 _ 0 1 [1] rfl)
      (.cons (.append _ 0 1 [1] none rfl) (.cons (.write _ 0 1 [1] [1] rfl)
      (.cons (.call _ 1 (.lookup 2) rfl) (.cons (.look _ 1 _ rfl) (.cons (.clash _ 0 1 1 [1] [1] (by decide) rfl rfl) (.nil _)))))))))), by simp, by simp, by simp; grind, by simp⟩

/-- **C87 is false of the code** even if the process survives: two goroutines register the same ID, both succeed, and in slices mode the route has the handlers of both. -/
theorem C87_twice_refuted : ∃ ls t, Steps (RouteConc.Step Nat true) {} ls t ∧ .fatal ∉ ls ∧ .ret 0 (.add 1 [1]) .added ∈ ls ∧ .ret 1 (.add 1 [2]) .added ∈ ls ∧
    .ret 2 (.lookup 1) (.found (some [1, 2])) ∈ ls :=
  ⟨_, _, .cons (.call _ 0 (.add 1 [1]) rfl) (.cons (.look _ 0 _ rfl) (.cons (.seen _ 0 _ rfl) (.cons (.call _ 1 (.add 1 [2]) rfl) (.cons (.look _ 1 _ rfl) (.cons (.seen _ 1 _ rfl)
    (.cons (.look2 _ 0 1 [1] rfl rfl) (.cons (.seen2 _ 0 1 [1] rfl) (.cons (.append _ 0 1 [1] none rfl) (.cons (.write _ 0 1 [1] [1] rfl) (.cons (.written _ 0 1 [1] [1] rfl) (.cons (.ret _ 0 _ _ rfl)
    (.cons (.look2 _ 1 1 [2] rfl rfl) (.cons (.seen2 _ 1 1 [2] rfl) (.cons (.append _ 1 1 [2] (some [1]) rfl) (.cons (.write _ 1 1 [2] [1, 2] rfl) (.cons (.written _ 1 1 [2] [1, 2] rfl)
    (.cons (.ret _ 1 _ _ rfl) (.cons (.call _ 2 (.lookup 1) rfl) (.cons (.look _ 2 _ rfl) (.cons (.seen _ 2 _ rfl) (.cons (.found _ 2 1 (some [1, 2]) rfl) (.cons (.ret _ 2 _ _ rfl) (.nil _))))))))))))))))))))))),
    by simp, by simp, by simp, by simp⟩

/-- **C87 (refuted, always).** Not only from a fresh handler: whatever routes there are and whatever other goroutines do, when a registration of an ID without a route and another call, of any kind and for any ID, have
both begun, the process can end. So the condition of `C87_partial` cannot be weakened to allow any second call. -/
theorem C87_any_refuted (slices : Bool) (s : RouteConc.State H) (i j : Nat) (hij : i ≠ j) (id : UInt32) (hs : List H) (op : RouteConc.Op H) (hi : s.pc i = .start (.add id hs)) (hj : s.pc j = .start op)
    (hfree : s.map id = none) : ∃ ls t, Steps (RouteConc.Step H slices) s ls t ∧ .fatal ∈ ls ∧ ∀ k op, .call k op ∉ ls := by
  have hset : ∀ (f : Nat → RouteConc.Pc H) (k : Nat) (v : RouteConc.Pc H), RouteConc.set f k v k = v := by intro f k v; simp [RouteConc.set]
  have hne : ∀ (f : Nat → RouteConc.Pc H) (v : RouteConc.Pc H), RouteConc.set f i v j = f j := by intro f v; simp [RouteConc.set, Ne.symm hij]
  have hne' : ∀ (f : Nat → RouteConc.Pc H) (v : RouteConc.Pc H), RouteConc.set f j v i = f i := by intro f v; simp [RouteConc.set, hij]
  -- the end: `i` about to write, `j` in its access
  have fin : ∀ {w u : RouteConc.State H} {l : RouteConc.Label H} (v : List H), RouteConc.Step H slices w l u → u.pc i = .put id hs v → u.pc j = .look op → ∃ t, Steps (RouteConc.Step H slices) w [l, .inside i, .fatal] t := by
    intro w u l v h0 h1 h2
    exact ⟨_, .cons h0 <| .cons (.write u i id hs v h1) (.cons (.clash _ i j id hs v hij (hset _ _ _) (by dsimp only; rw [hne, h2]; rfl)) (.nil _))⟩
  have a1 := RouteConc.Step.look (H := H) (slices := slices) s j op hj
  have a2 := RouteConc.Step.look (H := H) (slices := slices) { s with pc := RouteConc.set s.pc j (.look op) } i (.add id hs) (by dsimp only; rw [hne', hi])
  have a3 := RouteConc.Step.seen (H := H) (slices := slices) { s with pc := RouteConc.set (RouteConc.set s.pc j (.look op)) i (.look (.add id hs)) } i (.add id hs) (hset _ _ _)
  have e3 : s.map (RouteConc.Op.id (.add id hs : RouteConc.Op H)) = none := hfree
  dsimp only at a3
  rw [e3] at a3
  cases hsl : slices with
  | false =>
    subst hsl
    have a4 := RouteConc.Step.plain (H := H) (slices := false) { s with pc := RouteConc.set (RouteConc.set (RouteConc.set s.pc j (.look op)) i (.look (.add id hs))) i (.seen (.add id hs) none) } i id hs (hset _ _ _) rfl
    obtain ⟨t, ht⟩ := fin hs a4 (hset _ _ _) (by dsimp only; rw [hne, hne, hne, hset])
    exact ⟨_, t, .cons a1 (.cons a2 (.cons a3 ht)), by simp, by simp⟩
  | true =>
    subst hsl
    have a4 := RouteConc.Step.look2 (H := H) (slices := true) { s with pc := RouteConc.set (RouteConc.set (RouteConc.set s.pc j (.look op)) i (.look (.add id hs))) i (.seen (.add id hs) none) } i id hs (hset _ _ _) rfl
    have a5 := RouteConc.Step.seen2 (H := H) (slices := true) _ i id hs (show (RouteConc.State.mk s.map (RouteConc.set (RouteConc.set (RouteConc.set (RouteConc.set s.pc j (.look op)) i (.look (.add id hs))) i (.seen (.add id hs) none)) i (.look2 id hs))).pc i = .look2 id hs from hset _ _ _)
    have a6 := RouteConc.Step.append (H := H) (slices := true) _ i id hs (s.map id) (show (RouteConc.State.mk s.map (RouteConc.set (RouteConc.set (RouteConc.set (RouteConc.set (RouteConc.set s.pc j (.look op)) i (.look (.add id hs))) i (.seen (.add id hs) none)) i (.look2 id hs)) i (.seen2 id hs (s.map id)))).pc i = .seen2 id hs (s.map id) from hset _ _ _)
    obtain ⟨t, ht⟩ := fin ((s.map id).getD [] ++ hs) a6 (hset _ _ _) (by dsimp only; rw [hne, hne, hne, hne, hne, hset])
    exact ⟨_, t, .cons a1 (.cons a2 (.cons a3 (.cons a4 (.cons a5 ht)))), by simp, by simp⟩

/-- Such a state: two goroutines have called. -/
example : ∃ ls s, Steps (RouteConc.Step Nat true) {} ls s ∧ s.pc 0 = .start (.add 1 [1]) ∧ s.pc 1 = .start (.lookup 2) ∧ s.map 1 = none :=
  ⟨_, _, .cons (.call _ 0 (.add 1 [1]) rfl) (.cons (.call _ 1 (.lookup 2) rfl) (.nil _)), rfl, rfl, rfl⟩

end Zinx.Props
