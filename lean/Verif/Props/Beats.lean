import Verif.Model.Beats
import Verif.Model.Sys
import Verif.Props.Alive

/-! # C99: two endpoints keep each other alive -/

namespace Zinx.Props

open Zinx Zinx.Beats

/-- Successive times, from `b` on, are at most `g` apart. -/
def steady (g : Int) : Int → List Int → Prop
  | _, [] => True
  | b, r :: rs => r ≤ b + g ∧ steady g r rs

/-- The last of the times `b :: l`. -/
def lastFrom : Int → List Int → Int
  | b, [] => b
  | _, r :: l => lastFrom r l

theorem steady_snoc {g r : Int} : ∀ {b : Int} {l : List Int}, steady g b l → r ≤ lastFrom b l + g → steady g b (l ++ [r]) := by
  intro b l
  induction l generalizing b with
  | nil => intro _ h; exact ⟨h, trivial⟩
  | cons a l ih => intro ⟨h1, h2⟩ h; exact ⟨h1, ih h2 h⟩

theorem lastFrom_snoc (r : Int) : ∀ (l : List Int) (b : Int), lastFrom b (l ++ [r]) = r := by
  intro l
  induction l with
  | nil => intro b; rfl
  | cons a l ih => intro b; exact ih a

/-- The heartbeats of the other side arrive regularly at side `x`. -/
structure Fed (m : Timing) (s : Beats.State) (x : Bool) : Prop where
  past : ∀ r ∈ s.flight x, r ≤ s.now
  begun : ∀ t0, s.start x = some t0 → t0 ≤ s.last x ∧ s.last x ≤ s.now
  other : ∀ t1, s.start (!x) = some t1 → t1 ≤ s.now ∧ (s.dead (!x) = false →
    ∃ b, b ≤ s.now ∧ (s.start x ≠ none → b ≤ s.last x + m.skew) ∧ steady (m.interval (!x) + m.lag) b (s.flight x) ∧ t1 + s.checks (!x) * m.interval (!x) ≤ lastFrom b (s.flight x))
  idle : s.start x = none → s.checks x = 0 ∧ s.flight (!x) = []

/-- Nothing is overdue, and while nobody gave up and there is a network, both sides are fed. -/
structure BeatInv (m : Timing) (s : Beats.State) : Prop where
  time : InTime m s s.now
  fed : ∀ x, Fed m s x

theorem beatInv_start (m : Timing) : BeatInv m {} :=
  ⟨⟨(by intro x t0 h; cases h), (by intro _ x t0 h; cases h), (by intro x t0 h; cases h)⟩, fun x => ⟨(by intro r h; cases h), (by intro t0 h; cases h), (by intro t1 h; cases h), fun _ => ⟨rfl, rfl⟩⟩⟩

theorem beatInv_step {m : Timing} {s t : Beats.State} {l : Beats.Label} (h : BeatInv m s) (hs : Beats.Step m s l t) : BeatInv m t := by
  obtain ⟨hT, hF⟩ := h
  cases hs with
  | advance d hd =>
    refine ⟨⟨hd.check, hd.deliver, hd.start⟩, fun x => ?_⟩
    obtain ⟨h1, h2, h3, h4⟩ := hF x
    refine ⟨fun r hr => ?_, fun t0 ht => ?_, fun t1 ht => ?_, h4⟩
    · have := h1 r hr; simp only; omega
    · have := h2 t0 ht; simp only; omega
    · obtain ⟨a, hq⟩ := h3 t1 ht
      refine ⟨by simp only; omega, fun hd' => ?_⟩
      obtain ⟨b, hb, c⟩ := hq hd'
      exact ⟨b, by simp only; omega, c⟩
  | start x hx =>
    have hid := (hF x).idle hx
    refine ⟨⟨fun y t0 hy hd => ?_, fun hc y t0 hy r hr => ?_, fun y t0 hy hn => ?_⟩, fun y => ?_⟩
    · by_cases e : y = x
      · subst e
        simp only [upd, if_true, Option.some.injEq] at hy
        have : (0 : Int) ≤ (s.checks y + 1 : Int) * m.interval y := Int.mul_nonneg (by omega) (by omega)
        simp only
        omega
      · simp only [upd, e, if_false] at hy
        exact hT.check y t0 hy hd
    · by_cases e : y = x
      · subst e
        simp only [upd, if_true, Option.some.injEq] at hy
        simp only
        omega
      · simp only [upd, e, if_false] at hy
        exact hT.deliver hc y t0 hy r hr
    · by_cases e : y = x
      · subst e
        simp only [upd, if_true, Option.some.injEq] at hy
        simp only
        omega
      · have : (!y) = x := by cases x <;> cases y <;> simp_all
        simp only [upd, this, if_true] at hn
        cases hn
    · obtain ⟨h1, h2, h3, h4⟩ := hF y
      by_cases e : y = x
      · subst e
        have e2 : (!y) ≠ y := by cases y <;> simp
        refine ⟨h1, fun t0 h => ?_, fun t1 h => ?_, fun h => ?_⟩
        · simp only [upd, if_true, Option.some.injEq] at h ⊢
          omega
        · simp only [upd, e2, if_false, if_true] at h ⊢
          obtain ⟨a, hq⟩ := h3 t1 h
          refine ⟨a, fun hd' => ?_⟩
          obtain ⟨b, hb, _, c⟩ := hq hd'
          exact ⟨b, hb, fun _ => by omega, c⟩
        · simp [upd] at h
      · have e2 : (!y) = x := by cases x <;> cases y <;> simp_all
        refine ⟨h1, fun t0 h => ?_, fun t1 h => ?_, fun h => ?_⟩
        · simp only [upd, e, if_false] at h ⊢
          exact h2 t0 h
        · simp only [upd, e, e2, if_false, if_true, Option.some.injEq] at h ⊢
          have hf : s.flight y = [] := by rw [show y = !x by rw [← e2]; simp]; exact hid.2
          refine ⟨by omega, fun _ => ⟨s.now, by omega, fun hne => ?_, by rw [hf]; trivial, by rw [hf, hid.1]; simp [lastFrom]; omega⟩⟩
          obtain ⟨t0, ht0⟩ := Option.ne_none_iff_exists'.1 hne
          have := hT.start y t0 ht0 (by rw [e2]; exact hx)
          have := h2 t0 ht0
          omega
        · simp only [upd, e, if_false] at h
          exact h4 h
  | beat x t0 hx hd hn he =>
    have e0 : ∀ y : Bool, y = x ∨ ((!y) = x ∧ y ≠ x ∧ y = !x) := by intro y; cases x <;> cases y <;> simp
    have e1 : x ≠ !x := by cases x <;> simp
    have hck := hT.check x t0 hx hd
    refine ⟨⟨fun y t hy hd' => ?_, fun hc y t hy r hr => ?_, hT.start⟩, fun y => ?_⟩
    · by_cases e : y = x
      · subst e
        have := hT.check y t hy hd'
        simp only [upd, if_true]
        have e3 : ((s.checks y + 1 : Nat) + 1 : Int) * m.interval y = (s.checks y + 1 : Int) * m.interval y + m.interval y := by
          rw [Int.add_mul, Int.one_mul]; rfl
        rw [e3]
        omega
      · simp only [upd, e, if_false]
        exact hT.check y t hy hd'
    · by_cases e : y = !x
      · simp only [upd, e, if_true] at hr
        rw [List.mem_append, List.mem_singleton] at hr
        rcases hr with hr | rfl
        · exact hT.deliver hc y t hy r (by rw [e]; exact hr)
        · simp only; omega
      · simp only [upd, e, if_false] at hr
        exact hT.deliver hc y t hy r hr
    · obtain ⟨h1, h2, h3, h4⟩ := hF y
      rcases e0 y with rfl | ⟨ea, eb, ec⟩
      · refine ⟨?_, h2, fun t1 h => ?_, fun h => ?_⟩
        · simp only [upd, e1, if_false]; exact h1
        · have : (!y) ≠ y := fun h => e1 h.symm
          simp only [upd, e1, this, if_false]
          exact h3 t1 h
        · simp only at h
          rw [hx] at h; cases h
      · subst ec
        have hx' : s.start (!!x) = some t0 := by rw [ea]; exact hx
        refine ⟨fun r hr => ?_, h2, fun t1 h => ?_, fun h => ?_⟩
        · simp only [upd, if_true] at hr
          rw [List.mem_append, List.mem_singleton] at hr
          rcases hr with hr | rfl
          · exact h1 r hr
          · simp
        · simp only at h
          obtain ⟨a, hq⟩ := h3 t1 h
          refine ⟨a, fun hd' => ?_⟩
          obtain ⟨b, hb, hb2, hst, hl⟩ := hq hd'
          rw [hx'] at h
          cases h
          rw [ea] at hst hl
          refine ⟨b, hb, hb2, ?_, ?_⟩
          · simp only [upd, ea, if_true]
            refine steady_snoc hst ?_
            rw [Int.add_mul, Int.one_mul] at hck
            omega
          · simp only [upd, ea, if_true]
            rw [lastFrom_snoc]
            exact hn
        · simp only [upd, eb, if_false] at h ⊢
          rw [Bool.not_not, if_neg e1]
          have := h4 h
          rw [Bool.not_not] at this
          exact this
  | notAlive x t0 hx hd hn he =>
    refine ⟨⟨fun y t hy hd' => ?_, hT.deliver, hT.start⟩, fun y => ?_⟩
    · by_cases e : y = x
      · simp [upd, e] at hd'
      · simp only [upd, e, if_false] at hd' ⊢
        exact hT.check y t hy hd'
    · obtain ⟨h1, h2, h3, h4⟩ := hF y
      refine ⟨h1, h2, fun t1 h => ⟨(h3 t1 h).1, fun hd' => ?_⟩, fun h => ?_⟩
      · by_cases e : (!y) = x
        · simp [upd, e] at hd'
        · simp only [upd, e, if_false] at hd' ⊢
          exact (h3 t1 h).2 hd'
      · by_cases e : y = x
        · subst e
          simp only at h
          rw [hx] at h; cases h
        · simp only [upd, e, if_false]
          exact h4 h
  | deliver x r rs hx hc hf =>
    have hr : r ≤ s.now := (hF x).past r (by rw [hf]; exact List.mem_cons_self)
    refine ⟨⟨hT.check, fun hc y t hy r' hr' => ?_, hT.start⟩, fun y => ?_⟩
    · by_cases e : y = x
      · subst e
        simp only [upd, if_true] at hr'
        exact hT.deliver hc y t hy r' (by rw [hf]; exact List.mem_cons_of_mem _ hr')
      · simp only [upd, e, if_false] at hr'
        exact hT.deliver hc y t hy r' hr'
    · obtain ⟨h1, h2, h3, h4⟩ := hF y
      by_cases e : y = x
      · subst e
        have e1 : (!y) ≠ y := by cases y <;> simp
        refine ⟨fun r' hr' => ?_, fun t0 h => ?_, fun t1 h => ?_, fun h => absurd h hx⟩
        · simp only [upd, if_true] at hr'
          exact h1 r' (by rw [hf]; exact List.mem_cons_of_mem _ hr')
        · have := h2 t0 h
          simp only [upd, if_true]
          omega
        · obtain ⟨a, hq⟩ := h3 t1 h
          refine ⟨a, fun hd' => ?_⟩
          obtain ⟨b, hb, hb2, hst, hl⟩ := hq hd'
          simp only [upd, if_true]
          rw [hf] at hst hl
          exact ⟨r, hr, fun _ => by omega, hst.2, hl⟩
      · refine ⟨fun r' hr' => ?_, fun t0 h => ?_, fun t1 h => ?_, fun h => ?_⟩
        · simp only [upd, e, if_false] at hr'
          exact h1 r' hr'
        · simp only [upd, e, if_false]
          exact h2 t0 h
        · simp only [upd, e, if_false]
          exact h3 t1 h
        · have := h4 h
          have e2 : (!y) = x := by cases x <;> cases y <;> simp_all
          rw [e2, hf] at this
          cases this.2
  | cut hc => 
    refine ⟨⟨hT.check, ?_, hT.start⟩, fun x => ?_⟩
    · intro h; cases h
    · obtain ⟨h1, h2, h3, h4⟩ := hF x
      exact ⟨h1, h2, h3, h4⟩

/-- How long a side may have heard nothing. -/
theorem heard_since {m : Timing} {s : Beats.State} (h : BeatInv m s) (hc : s.cut = none) (x : Bool) (hd : s.dead (!x) = false) (t0 : Int) (h0 : s.start x = some t0) :
    s.now ≤ s.last x + (m.skew + m.interval (!x) + m.lag + m.delay) := by
  have hb := (h.fed x).begun t0 h0
  cases h1 : s.start (!x) with
  | none =>
    have := h.time.start x t0 h0 h1
    omega
  | some t1 =>
    obtain ⟨_, hq⟩ := (h.fed x).other t1 h1
    obtain ⟨b, _, hb2, hst, hl⟩ := hq hd
    have hb3 := hb2 (by rw [h0]; simp)
    cases hf : s.flight x with
    | nil =>
      rw [hf] at hl
      have hck := h.time.check (!x) t1 h1 hd
      rw [Int.add_mul, Int.one_mul] at hck
      simp only [lastFrom] at hl
      omega
    | cons r rs =>
      have := h.time.deliver hc x t0 h0 r (by rw [hf]; exact List.mem_cons_self)
      rw [hf] at hst
      have := hst.1
      omega

theorem no_verdict {l : Beats.Label} {ls : List Beats.Label} {P : Prop} (hl : ∀ x, l ≠ .check x false) (h : P ∧ ∀ x, Beats.Label.check x false ∉ ls) : P ∧ ∀ x, Beats.Label.check x false ∉ l :: ls :=
  ⟨h.1, fun x hx => (List.mem_cons.1 hx).elim (fun e => hl x e.symm) (h.2 x)⟩

/-- **C99 (kept alive).** Both sides of a connection have a heartbeat checker. Suppose that for each side the interval of the other one, together with the time that may pass until the other side has
started, the time a check may take and the time a heartbeat may be under way, is less than its `HeartbeatMax`. Then, as long as the network is not cut, no side ever finds the other one dead. -/
theorem C99_kept {m : Timing} {s : Beats.State} {ls : List Beats.Label} (h : Steps (Beats.Step m) {} ls s) (hcut : Beats.Label.cut ∉ ls)
    (hm : ∀ x, (m.skew + m.interval (!x) + m.lag + m.delay : Int) < m.heartbeatMax x * 1000000000 ∧ m.heartbeatMax x * 1000000000 < 2 ^ 63) :
    (∀ x, s.dead x = false) ∧ ∀ x, Beats.Label.check x false ∉ ls := by
  suffices hh : ∀ (ls : List Beats.Label) (s₀ s : Beats.State), Steps (Beats.Step m) s₀ ls s → Beats.Label.cut ∉ ls → BeatInv m s₀ → s₀.cut = none → (∀ x, s₀.dead x = false) →
      (∀ x, s.dead x = false) ∧ ∀ x, Beats.Label.check x false ∉ ls from hh ls {} s h hcut (beatInv_start m) rfl (fun _ => rfl)
  intro ls s₀ s h
  induction h with
  | nil => intro _ _ _ hd; exact ⟨hd, fun _ h => by cases h⟩
  | cons hs _ ih =>
    intro hcut hi hc hd
    have hi' := beatInv_step hi hs
    have hcut' := fun h => hcut (List.mem_cons_of_mem _ h)
    cases hs with
    | advance d hd' => exact no_verdict (by simp) (ih hcut' hi' hc hd)
    | start x hx => exact no_verdict (by simp) (ih hcut' hi' hc hd)
    | beat x t0 hx hd' hn he => exact no_verdict (by simp) (ih hcut' hi' hc hd)
    | deliver x r rs hx hc' hf => exact no_verdict (by simp) (ih hcut' hi' hc hd)
    | cut hc' => exact absurd List.mem_cons_self hcut
    | notAlive x t0 hx hd' hn he =>
      exfalso
      have hh := heard_since hi hc x (hd _) t0 hx
      obtain ⟨m1, m2⟩ := hm x
      have e := limit_eq (hm := m.heartbeatMax x) (by omega) m2
      rw [e] at he
      apply he
      unfold Alive.elapsed
      simp only
      omega

/-- After the network was cut, nothing is heard, and checks go on as long as the limit has not passed. -/
structure CutInv (m : Timing) (s : Beats.State) : Prop where
  heard : ∀ c, s.cut = some c → c ≤ s.now ∧ ∀ x t0, s.start x = some t0 → s.last x ≤ max c t0
  past : ∀ x t0, s.start x = some t0 → t0 ≤ s.last x ∧ s.last x ≤ s.now
  idle : ∀ x, s.start x = none → s.checks x = 0
  checked : ∀ x t0, s.start x = some t0 → s.dead x = false → 0 < Alive.limit (m.heartbeatMax x) → t0 + s.checks x * m.interval x < s.last x + Alive.limit (m.heartbeatMax x)

theorem limit_le (k : Int) : Alive.limit k ≤ Alive.maxDuration := by
  unfold Alive.limit Alive.maxDuration wrap64
  have := @Int.bmod_lt (k * 1000000000) (2 ^ 64) (by decide)
  omega

theorem cutInv_step {m : Timing} {s t : Beats.State} {l : Beats.Label} (h : CutInv m s) (hs : Beats.Step m s l t) : CutInv m t := by
  obtain ⟨h1, h2, h3, h4⟩ := h
  cases hs with
  | advance d hd =>
    refine ⟨fun c hc => ⟨?_, (h1 c hc).2⟩, fun x t0 hx => ?_, h3, h4⟩
    · have := (h1 c hc).1
      simp only
      omega
    · have := h2 x t0 hx
      simp only
      omega
  | start x hx =>
    have hz := h3 x hx
    refine ⟨fun c hc => ⟨(h1 c hc).1, fun y t0 hy => ?_⟩, fun y t0 hy => ?_, fun y hy => ?_, fun y t0 hy hd hl => ?_⟩
    all_goals
      by_cases e : y = x
      · subst e
        simp only [upd, if_true, Option.some.injEq] at hy ⊢
        first
          | omega
          | (rw [hz]; simp; omega)
          | (cases hy)
      · simp only [upd, e, if_false] at hy ⊢
        first
          | exact (h1 c hc).2 y t0 hy
          | exact h2 y t0 hy
          | exact h3 y hy
          | exact h4 y t0 hy hd hl
  | beat x t0 hx hd hn he =>
    refine ⟨h1, h2, fun y hy => ?_, fun y t hy hd hl => ?_⟩
    · by_cases e : y = x
      · subst e
        simp only at hy
        rw [hx] at hy; cases hy
      · simp only [upd, e, if_false]; exact h3 y hy
    · by_cases e : y = x
      · subst e
        simp only at hy
        rw [hx] at hy; cases hy
        simp only [upd, if_true]
        have := limit_le (m.heartbeatMax y)
        unfold Alive.elapsed at he
        simp only at he
        have e : ((s.checks y + 1 : Nat) : Int) = (s.checks y : Int) + 1 := rfl
        rw [e]
        omega
      · simp only [upd, e, if_false]; exact h4 y t hy hd hl
  | notAlive x t0 hx hd hn he =>
    refine ⟨h1, h2, fun y hy => ?_, fun y t hy hd hl => ?_⟩
    · by_cases e : y = x
      · subst e
        simp only at hy
        rw [hx] at hy; cases hy
      · simp only [upd, e, if_false]; exact h3 y hy
    · by_cases e : y = x
      · simp [upd, e] at hd
      · simp only [upd, e, if_false] at hd ⊢; exact h4 y t hy hd hl
  | deliver x r rs hx hc hf =>
    refine ⟨fun c hc' => (by simp only at hc'; rw [hc] at hc'; cases hc'), fun y t0 hy => ?_, h3, fun y t0 hy hd hl => ?_⟩
    · have := h2 y t0 hy
      by_cases e : y = x
      · simp only [upd, e, if_true]; omega
      · simp only [upd, e, if_false]; omega
    · have := h4 y t0 hy hd hl
      have := h2 y t0 hy
      by_cases e : y = x
      · subst e; simp only [upd, if_true]; omega
      · simp only [upd, e, if_false]; omega
  | cut hc =>
    refine ⟨fun c hc' => ?_, h2, h3, h4⟩
    simp only [Option.some.injEq] at hc'
    subst hc'
    refine ⟨Int.le_refl _, fun x t0 hx => ?_⟩
    have := h2 x t0 hx
    simp only
    omega

theorem cutInv_start (m : Timing) : CutInv m {} :=
  ⟨(by intro c h; cases h), (by intro x t0 h; cases h), fun _ _ => rfl, (by intro x t0 h; cases h)⟩

/-- **C99 (noticed).** Once the network is cut, a side finds the other one dead not later than its `HeartbeatMax`, its interval and the time a check may take after the cut, or after its start if that came
later. -/
theorem C99_noticed {m : Timing} {s : Beats.State} {ls : List Beats.Label} (h : Steps (Beats.Step m) {} ls s) (c : Int) (hc : s.cut = some c) (x : Bool) (t0 : Int) (h0 : s.start x = some t0)
    (hm : 0 < m.heartbeatMax x) (hm' : m.heartbeatMax x * 1000000000 < 2 ^ 63) (hnow : max c t0 + m.heartbeatMax x * 1000000000 + m.interval x + m.lag ≤ s.now) : s.dead x = true := by
  have hi : CutInv m s := Steps.invariant (P := CutInv m) (fun _ _ _ hp hs => cutInv_step hp hs) h (cutInv_start m)
  have hb : BeatInv m s := Steps.invariant (P := BeatInv m) (fun _ _ _ hp hs => beatInv_step hp hs) h (beatInv_start m)
  cases hd : s.dead x with
  | true => rfl
  | false =>
    exfalso
    have e := limit_eq (hm := m.heartbeatMax x) (by omega) hm'
    have h1 := hi.checked x t0 h0 hd (by omega)
    have h2 := (hi.heard c hc).2 x t0 h0
    have h3 := hb.time.check x t0 h0 hd
    rw [Int.add_mul, Int.one_mul] at h3
    omega

/-! ## Time goes on -/

theorem start_both {m : Timing} (s : Beats.State) : ∃ ls t, Steps (Beats.Step m) s ls t ∧ Beats.Label.cut ∉ ls ∧ t.now = s.now ∧ t.cut = s.cut ∧ ∀ x, t.start x ≠ none := by
  have one : ∀ (x : Bool) (s : Beats.State), ∃ ls t, Steps (Beats.Step m) s ls t ∧ Beats.Label.cut ∉ ls ∧ t.now = s.now ∧ t.cut = s.cut ∧ t.start x ≠ none ∧ (s.start (!x) ≠ none → t.start (!x) ≠ none) := by
    intro x s
    cases h : s.start x with
    | some t0 => exact ⟨[], s, .nil _, by simp, rfl, rfl, by simp [h], id⟩
    | none => exact ⟨_, _, .cons (.start s x h) (.nil _), by simp, rfl, rfl, by simp [upd], by cases x <;> simp [upd]⟩
  obtain ⟨l1, t1, a1, a2, a3, a4, a5, a6⟩ := one true s
  obtain ⟨l2, t2, b1, b2, b3, b4, b5, b6⟩ := one false t1
  refine ⟨_, _, a1.append b1, by simp [a2, b2], by omega, by rw [b4, a4], fun x => ?_⟩
  cases x
  · exact b5
  · exact b6 a5

theorem check_one {m : Timing} (hi : ∀ x, 0 < m.interval x) (x : Bool) {s : Beats.State} (h : BeatInv m s) : ∃ ls t, Steps (Beats.Step m) s ls t ∧ Beats.Label.cut ∉ ls ∧ t.now = s.now ∧ t.cut = s.cut ∧
    t.start = s.start ∧ t.checks (!x) = s.checks (!x) ∧ t.dead (!x) = s.dead (!x) ∧
    ∀ t0, t.start x = some t0 → t.dead x = false → t.now + 1 ≤ t0 + (t.checks x + 1) * m.interval x + m.lag := by
  have e : (!x) ≠ x := by cases x <;> simp
  by_cases hh : ∀ t0, s.start x = some t0 → s.dead x = false → s.now + 1 ≤ t0 + (s.checks x + 1) * m.interval x + m.lag
  · exact ⟨[], s, .nil _, by simp, rfl, rfl, rfl, rfl, rfl, hh⟩
  · have hex : ∃ t0, s.start x = some t0 ∧ s.dead x = false ∧ ¬ s.now + 1 ≤ t0 + (s.checks x + 1) * m.interval x + m.lag := by
      false_or_by_contra
      rename_i hn
      exact hh fun t0 h0 hd => Decidable.byContradiction fun h => hn ⟨t0, h0, hd, h⟩
    obtain ⟨t0, h0, hd, hlate⟩ := hex
    have hle : t0 + (s.checks x + 1) * m.interval x ≤ s.now := by omega
    by_cases hv : Alive.elapsed s.now (some (s.last x)) < Alive.limit (m.heartbeatMax x)
    · refine ⟨_, _, .cons (.beat s x t0 h0 hd hle hv) (.nil _), by simp, rfl, rfl, rfl, by simp [upd, e], rfl, fun t1 h1 _ => ?_⟩
      simp only at h1
      rw [h0] at h1; cases h1
      have hb := h.time.check x t0 h0 hd
      have hp := hi x
      simp only [upd, if_true]
      have e3 : ((s.checks x + 1 : Nat) + 1 : Int) * m.interval x = (s.checks x + 1 : Int) * m.interval x + m.interval x := by
        rw [Int.add_mul, Int.one_mul]; rfl
      rw [e3]
      omega
    · exact ⟨_, _, .cons (.notAlive s x t0 h0 hd hle hv) (.nil _), by simp, rfl, rfl, rfl, by simp [upd, e], by simp [upd, e], fun t1 _ hd' => by simp [upd] at hd'⟩

theorem deliver_all {m : Timing} (x : Bool) : ∀ (n : Nat) (s : Beats.State), (s.flight x).length = n → s.start x ≠ none → s.cut = none → ∃ ls t, Steps (Beats.Step m) s ls t ∧ Beats.Label.cut ∉ ls ∧
    t.now = s.now ∧ t.cut = s.cut ∧ t.start = s.start ∧ t.checks = s.checks ∧ t.dead = s.dead ∧ t.flight (!x) = s.flight (!x) ∧ t.flight x = [] := by
  have e : (!x) ≠ x := by cases x <;> simp
  intro n
  induction n with
  | zero => intro s hn hx hc; exact ⟨[], s, .nil _, by simp, rfl, rfl, rfl, rfl, rfl, rfl, List.length_eq_zero_iff.1 hn⟩
  | succ n ih =>
    intro s hn hx hc
    obtain ⟨r, rs, hf⟩ := List.exists_cons_of_length_eq_add_one hn
    obtain ⟨ls, t, h1, h2, h3, h4, h5, h6, h7, h8, h9⟩ := ih { s with last := upd s.last x s.now, flight := upd s.flight x rs } (by simp [upd, hf] at hn ⊢; omega) hx hc
    exact ⟨_, t, .cons (.deliver s x r rs hx hc hf) h1, by simp [h2], h3, h4, h5, h6, h7, by rw [h8]; simp [upd, e], h9⟩

/-- From every state without anything overdue, a nanosecond can pass. -/
theorem tick_more {m : Timing} (hi : ∀ x, 0 < m.interval x) {s : Beats.State} (h : BeatInv m s) : ∃ ls t, Steps (Beats.Step m) s ls t ∧ Beats.Label.cut ∉ ls ∧ t.now = s.now + 1 := by
  have inv : ∀ {s t : Beats.State} {ls : List Beats.Label}, Steps (Beats.Step m) s ls t → BeatInv m s → BeatInv m t := fun h h0 => Steps.invariant (P := BeatInv m) (fun _ _ _ hp hs => beatInv_step hp hs) h h0
  obtain ⟨l1, s1, a1, a2, a3, a4, a5⟩ := start_both (m := m) s
  have i1 := inv a1 h
  obtain ⟨l2, s2, b1, b2, b3, b4, b5, b6, b7, b8⟩ := check_one hi true i1
  have i2 := inv b1 i1
  obtain ⟨l3, s3, c1, c2, c3, c4, c5, c6, c7, c8⟩ := check_one hi false i2
  simp only [Bool.not_true, Bool.not_false] at b6 b7 c6 c7
  have hck : ∀ x t0, s3.start x = some t0 → s3.dead x = false → s3.now + 1 ≤ t0 + (s3.checks x + 1) * m.interval x + m.lag := by
    intro x t0 h0 hd
    cases x with
    | false => exact c8 t0 h0 hd
    | true =>
      rw [c5] at h0; rw [c7] at hd; rw [c6, c3]
      exact b8 t0 h0 hd
  have hs3 : ∀ x, s3.start x ≠ none := by rw [c5, b5]; exact a5
  have fin : ∀ (ls : List Beats.Label) (t : Beats.State), Steps (Beats.Step m) s3 ls t → Beats.Label.cut ∉ ls → t.now = s3.now → t.start = s3.start → t.checks = s3.checks → t.dead = s3.dead →
      (t.cut = none → ∀ x, t.flight x = []) → ∃ ls t, Steps (Beats.Step m) s ls t ∧ Beats.Label.cut ∉ ls ∧ t.now = s.now + 1 := by
    intro ls t h1 h2 h3 h4 h5 h6 h7
    refine ⟨_, _, ((a1.append b1).append c1).append (h1.append (.cons (.advance t 1 ⟨?_, ?_, ?_⟩) (.nil _))), by simp [a2, b2, c2, h2], ?_⟩
    · rw [h3, h4, h5, h6]; exact hck
    · intro hc x t0 _ r hr
      rw [h7 hc x] at hr; cases hr
    · intro x t0 _ hn
      rw [h4] at hn
      exact absurd hn (hs3 _)
    · show t.now + 1 = _
      omega
  cases hc : s3.cut with
  | some c => exact fin [] s3 (.nil _) (by simp) rfl rfl rfl rfl (fun h => by rw [hc] at h; cases h)
  | none =>
    obtain ⟨l4, s4, d1, d2, d3, d4, d5, d6, d7, d8, d9⟩ := deliver_all (m := m) true _ s3 rfl (hs3 _) hc
    obtain ⟨l5, s5, e1, e2, e3, e4, e5, e6, e7, e8, e9⟩ := deliver_all (m := m) false _ s4 rfl (by rw [d5]; exact hs3 _) (by rw [d4, hc])
    refine fin (l4 ++ l5) s5 (d1.append e1) (by simp [d2, e2]) (by omega) (by rw [e5, d5]) (by rw [e6, d6]) (by rw [e7, d7]) (fun _ x => ?_)
    cases x with
    | false => exact e9
    | true => rw [Bool.not_false] at e8; rw [e8, d9]

/-- **C99 (time goes on).** The bounds never contradict each other: from every state that can be reached, time can go on without end, whatever the bounds are, without a cut of the network. -/
theorem C99_goes_on {m : Timing} (hi : ∀ x, 0 < m.interval x) {s : Beats.State} {ls : List Beats.Label} (h : Steps (Beats.Step m) {} ls s) (n : Nat) :
    ∃ ls' t, Steps (Beats.Step m) s ls' t ∧ Beats.Label.cut ∉ ls' ∧ t.now = s.now + n := by
  have hb : BeatInv m s := Steps.invariant (P := BeatInv m) (fun _ _ _ hp hs => beatInv_step hp hs) h (beatInv_start m)
  clear h
  induction n generalizing s with
  | zero => exact ⟨[], s, .nil _, by simp, by simp⟩
  | succ n ih =>
    obtain ⟨l1, t1, a1, a2, a3⟩ := tick_more hi hb
    obtain ⟨l2, t2, b1, b2, b3⟩ := ih (Steps.invariant (P := BeatInv m) (fun _ _ _ hp hs => beatInv_step hp hs) a1 hb)
    exact ⟨_, _, a1.append b1, by simp [a2, b2], by omega⟩

/-! ## Intervals that are too long -/

/-- Until somebody gives up, nobody has sent anything. -/
structure SlowInv (s : Beats.State) : Prop where
  quiet : (∀ x, s.dead x = false) → ∀ x, s.checks x = 0 ∧ s.flight x = [] ∧ ∀ t0, s.start x = some t0 → s.last x = t0

theorem slowInv_step {m : Timing} (hm : ∀ x, Alive.limit (m.heartbeatMax x) ≤ m.interval x ∧ Alive.limit (m.heartbeatMax x) ≤ Alive.maxDuration) {s t : Beats.State} {l : Beats.Label} (h : SlowInv s) (hs : Beats.Step m s l t) :
    SlowInv t := by
  obtain ⟨h⟩ := h
  cases hs with
  | advance d hd => exact ⟨h⟩
  | start x hx =>
    refine ⟨fun hd y => ?_⟩
    obtain ⟨h1, h2, h3⟩ := h hd y
    refine ⟨h1, h2, fun t0 h0 => ?_⟩
    by_cases e : y = x
    · simp only [upd, e, if_true, Option.some.injEq] at h0 ⊢; exact h0
    · simp only [upd, e, if_false] at h0 ⊢; exact h3 t0 h0
  | beat x t0 hx hd hn he =>
    refine ⟨fun hd' => ?_⟩
    exfalso
    obtain ⟨h1, h2, h3⟩ := h hd' x
    have e := h3 t0 hx
    have := hm x
    rw [h1] at hn
    unfold Alive.elapsed at he
    simp at hn he
    omega
  | notAlive x t0 hx hd hn he =>
    refine ⟨fun hd' => ?_⟩
    have := hd' x
    simp [upd] at this
  | deliver x r rs hx hc hf =>
    refine ⟨fun hd' => ?_⟩
    have := (h hd' x).2.1
    rw [hf] at this
    cases this
  | cut hc => exact ⟨h⟩

/-- **C99 (too slow).** If the interval of each side is at least its own `HeartbeatMax`, the first check that takes place ends the connection, however fast the network is: after any check some side has
found the other one dead. Nothing in the library compares the two settings. -/
theorem C99_too_slow {m : Timing} {s : Beats.State} {ls : List Beats.Label} (h : Steps (Beats.Step m) {} ls s) (hm : ∀ x, m.heartbeatMax x * 1000000000 ≤ m.interval x ∧ 0 ≤ m.heartbeatMax x ∧ m.heartbeatMax x * 1000000000 < 2 ^ 63)
    (x : Bool) (a : Bool) (hx : Beats.Label.check x a ∈ ls) : ∃ y, s.dead y = true := by
  have hm' : ∀ x, Alive.limit (m.heartbeatMax x) ≤ m.interval x ∧ Alive.limit (m.heartbeatMax x) ≤ Alive.maxDuration := by
    intro x
    rw [limit_eq (hm x).2.1 (hm x).2.2]
    have := hm x
    unfold Alive.maxDuration
    omega
  have key : SlowInv s ∧ ((∀ y, s.dead y = false) → ∀ x a, Beats.Label.check x a ∉ ls) := by
    clear hx
    refine Steps.invariant_trace (P := fun ls s => SlowInv s ∧ ((∀ y, s.dead y = false) → ∀ x a, Beats.Label.check x a ∉ ls)) ?_ h ⟨⟨fun _ _ => ⟨rfl, rfl, by intro t0 h; cases h⟩⟩, fun _ _ _ h => by cases h⟩
    intro ls s l t ⟨h1, h2⟩ hs
    refine ⟨slowInv_step hm' h1 hs, fun hd x a hx => ?_⟩
    have hmono : ∀ y, s.dead y = false := by
      intro y
      have := hd y
      cases hs <;> simp_all [upd]
    rcases List.mem_append.1 hx with hx | hx
    · exact h2 hmono x a hx
    · rw [List.mem_singleton] at hx
      have h4 := ((slowInv_step hm' h1 hs).quiet hd x).1
      subst hx
      cases hs <;> simp [upd] at h4
  false_or_by_contra
  rename_i hn
  exact key.2 (fun y => (Bool.eq_false_or_eq_true _).resolve_left fun e => hn ⟨y, e⟩) x a hx

/-! ## Examples -/

/-- Heartbeats every 5 s, the default limit of 10 s, a second for a check, up to 2 s under way, a second between the starts. -/
def beatTimes : Timing := ⟨fun _ => 5000000000, fun _ => 10, 1000000000, 2000000000, 1000000000⟩

example : ∀ x, (beatTimes.skew + beatTimes.interval (!x) + beatTimes.lag + beatTimes.delay : Int) < beatTimes.heartbeatMax x * 1000000000 ∧ beatTimes.heartbeatMax x * 1000000000 < 2 ^ 63 := by decide

/-- Tactic for "nothing is overdue" in a concrete state. -/
macro "in_time" : tactic => `(tactic| (refine ⟨fun x t0 h hd => ?_, fun hc x t0 h r hr => ?_, fun x t0 h hn => ?_⟩ <;> cases x <;> simp [upd] at * <;> omega))

/-- Both sides start; one checks and its heartbeat arrives. -/
example : ∃ s, Steps (Beats.Step beatTimes) {} [.start true, .start false, .advance 5000000000, .check true true, .advance 1000000000, .deliver false] s ∧ s.last false = 6000000000 :=
  ⟨_, .cons (.start _ true rfl) (.cons (.start _ false rfl) (.cons (.advance _ 5000000000 (by simp only [beatTimes]; in_time)) (.cons (.beat _ true 0 rfl rfl (by decide) (by decide))
    (.cons (.advance _ 1000000000 (by simp only [beatTimes]; in_time)) (.cons (.deliver _ false 5000000000 [] (by decide) rfl rfl) (.nil _)))))), rfl⟩

/-- A cut after 3 s: both sides go on checking until, 10 s after the cut at the latest, the silence is long enough. Here side `true` finds out at 10 s. -/
example : ∃ s, Steps (Beats.Step beatTimes) {} [.start true, .start false, .advance 3000000000, .cut, .advance 2000000000, .check true true, .check false true, .advance 5000000000, .check true false,
      .check false false, .advance 9000000000] s ∧ s.cut = some 3000000000 ∧ s.start true = some 0 ∧ max 3000000000 0 + 10 * 1000000000 + 5000000000 + 1000000000 ≤ s.now ∧ s.dead true = true :=
  ⟨_, .cons (.start _ true rfl) (.cons (.start _ false rfl) (.cons (.advance _ 3000000000 (by simp only [beatTimes]; in_time)) (.cons (.cut _ rfl) (.cons (.advance _ 2000000000 (by simp only [beatTimes]; in_time))
    (.cons (.beat _ true 0 rfl rfl (by decide) (by decide)) (.cons (.beat _ false 0 rfl rfl (by decide) (by decide)) (.cons (.advance _ 5000000000 (by simp only [beatTimes]; in_time))
    (.cons (.notAlive _ true 0 rfl rfl (by decide) (by decide)) (.cons (.notAlive _ false 0 rfl rfl (by decide) (by decide)) (.cons (.advance _ 9000000000 (by simp only [beatTimes]; in_time)) (.nil _))))))))))),
    rfl, rfl, by decide, rfl⟩

/-- Heartbeats every 5 s, the default limit of 10 s, 2 s for a check, 2 s under way, a second between the starts: 10 s in all. -/
def tightTimes : Timing := ⟨fun _ => 5000000000, fun _ => 10, 2000000000, 2000000000, 1000000000⟩

/-- **C99 (no slack).** The bound of `C99_kept` cannot be weakened to "at most": here the sum is exactly `HeartbeatMax`, everything happens in time, the network is never cut, both sides work and send, and
still side `true` finds the other one dead. It is not enough that the intervals are half of `HeartbeatMax`. -/
theorem C99_no_slack : (∀ x, (tightTimes.skew + tightTimes.interval (!x) + tightTimes.lag + tightTimes.delay : Int) = tightTimes.heartbeatMax x * 1000000000) ∧
    ∃ s, Steps (Beats.Step tightTimes) {} [.start true, .advance 1000000000, .start false, .advance 4000000000, .check true true, .advance 2000000000, .deliver false, .advance 1000000000, .check false true,
      .advance 2000000000, .check true false] s ∧ s.dead true = true ∧ s.flight true = [8000000000] :=
  ⟨by decide, _, .cons (.start _ true rfl) (.cons (.advance _ 1000000000 (by simp only [tightTimes]; in_time)) (.cons (.start _ false rfl) (.cons (.advance _ 4000000000 (by simp only [tightTimes]; in_time))
    (.cons (.beat _ true 0 rfl rfl (by decide) (by decide)) (.cons (.advance _ 2000000000 (by simp only [tightTimes]; in_time)) (.cons (.deliver _ false 5000000000 [] (by decide) rfl rfl)
    (.cons (.advance _ 1000000000 (by simp only [tightTimes]; in_time)) (.cons (.beat _ false 1000000000 rfl rfl (by decide) (by decide)) (.cons (.advance _ 2000000000 (by simp only [tightTimes]; in_time))
    (.cons (.notAlive _ true 0 rfl rfl (by decide) (by decide)) (.nil _))))))))))), rfl, rfl⟩

/-- Heartbeats every 10 s and the default limit of 10 s. -/
def slowTimes : Timing := ⟨fun _ => 10000000000, fun _ => 10, 0, 0, 0⟩

example : ∀ x, slowTimes.heartbeatMax x * 1000000000 ≤ slowTimes.interval x ∧ 0 ≤ slowTimes.heartbeatMax x ∧ slowTimes.heartbeatMax x * 1000000000 < 2 ^ 63 := by decide

example : ∃ s, Steps (Beats.Step slowTimes) {} [.start true, .start false, .advance 10000000000, .check false false] s ∧ s.dead false = true :=
  ⟨_, .cons (.start _ true rfl) (.cons (.start _ false rfl) (.cons (.advance _ 10000000000 (by simp only [slowTimes]; in_time)) (.cons (.notAlive _ false 0 rfl rfl (by decide) (by decide)) (.nil _)))), rfl⟩

end Zinx.Props
