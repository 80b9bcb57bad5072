import Verif.Model.Caller

/-!
# C103: log lines and panic reports name the right places
-/

namespace Zinx.Props

open Zinx.Caller

/-! ## Log lines -/

/-- A line logged with the functions of the package, with `zlog.Ins()` or with the methods of a logger of one's own names the place of the call. -/
theorem C103_place_partial (out meth wrap : Frame) (e : Entry) (he : e = .package ∨ e = .ins ∨ e = .method) (u : Frame) (rest : List Frame) : place out meth wrap e (u :: rest) = (u.file, u.line) := by
  rcases he with rfl | rfl | rfl <;> rfl

/-- If the stack has no such frame, the line says so. -/
theorem C103_place_unknown (out meth wrap : Frame) (e : Entry) : place out meth wrap e [] = ("unknown-file".toList, 0) := by cases e <;> rfl

/-- A line logged with the methods of `zlog.StdZinxLog` or with `OutPut` of a logger names the caller of the function that logs instead, and with `zlog.StdZinxLog.OutPut` the caller of that. -/
theorem C103_place_refuted (out meth wrap : Frame) (u v w : Frame) (rest : List Frame) :
    place out meth wrap .stdMethod (u :: v :: rest) = (v.file, v.line) ∧ place out meth wrap .output (u :: v :: rest) = (v.file, v.line) ∧
    place out meth wrap .stdOutput (u :: v :: w :: rest) = (w.file, w.line) ∧
    ∃ u v : Frame, place out meth wrap .stdMethod [u, v] ≠ (u.file, u.line) :=
  ⟨rfl, rfl, rfl, ⟨[], [], 1⟩, ⟨[], [], 2⟩, by simp [place, caller, zlogFrames, depth]⟩

/-! ## Panic reports -/

theorem splitDot_ne (s : List Char) : splitDot s ≠ [] := by
  cases s with
  | nil => simp [splitDot]
  | cons c s =>
    simp only [splitDot]
    split
    · simp
    · split <;> simp

theorem splitDot_head (s : List Char) : (splitDot s)[0]? = some (s.takeWhile (· ≠ '.')) := by
  induction s with
  | nil => simp [splitDot]
  | cons c s ih =>
    simp only [splitDot]
    by_cases hc : c = '.'
    · simp [hc]
    · simp only [hc, if_false]
      split
      · rename_i h; exact absurd h (splitDot_ne s)
      · rename_i x xs h
        rw [h] at ih
        simp at ih
        simp [hc, ih]

theorem splitDot_dot (pkg fn : List Char) (h : '.' ∉ pkg) : splitDot (pkg ++ '.' :: fn) = pkg :: splitDot fn := by
  induction pkg with
  | nil => simp [splitDot]
  | cons c pkg ih =>
    have hc : c ≠ '.' := fun e => h (by simp [e])
    have := ih fun hm => h (List.mem_cons_of_mem _ hm)
    simp only [List.cons_append, splitDot, hc, if_false, this]

/-- What is shown of a function is what stands between the first and the second dot of its full name. -/
theorem C103_name_exact (pkg fn : List Char) (h : '.' ∉ pkg) : shownName (pkg ++ '.' :: fn) = some (fn.takeWhile (· ≠ '.')) := by
  unfold shownName
  rw [splitDot_dot pkg fn h]
  simpa using splitDot_head fn

/-- Hence the report names a function of a package whose path has no dot by its name (a method by its receiver), and every function of a package whose path has a dot by the middle of the path. -/
theorem C103_name_refuted : shownName "github.com/aceld/zinx/znet.RouterTime".toList = some "com/aceld/zinx/znet".toList ∧ shownName "main.Handler".toList = some "Handler".toList := by decide +kernel

theorem first_dot (s : List Char) (h : '.' ∈ s) : ∃ pkg fn, s = pkg ++ '.' :: fn ∧ '.' ∉ pkg := by
  induction s with
  | nil => cases h
  | cons c s ih =>
    by_cases hc : c = '.'
    · exact ⟨[], s, by simp [hc], by simp⟩
    · obtain ⟨pkg, fn, e, hp⟩ := ih ((List.mem_cons.1 h).resolve_left (Ne.symm hc))
      exact ⟨c :: pkg, fn, by simp [e], by simp [hp, Ne.symm hc]⟩

/-- Names without a dot end the report, and the process, with a panic; there are no others. -/
theorem C103_name_panics (func : List Char) : shownName func = none ↔ '.' ∉ func := by
  constructor
  · intro h hm
    obtain ⟨pkg, fn, rfl, hp⟩ := first_dot func hm
    rw [C103_name_exact pkg fn hp] at h
    cases h
  · intro h
    have : splitDot func = [func] := by
      induction func with
      | nil => rfl
      | cons c s ih =>
        have hc : c ≠ '.' := fun e => h (by simp [e])
        simp only [splitDot, hc, if_false, ih fun hm => h (List.mem_cons_of_mem _ hm)]
    unfold shownName
    rw [this]
    rfl

/-- The report contains the line at which a handler panicked, whether by `panic`, by an index out of range or by a nil pointer (one to three frames of the runtime), if the names of the functions have dots. -/
theorem C103_report (base : List Char → List Char) (getInfo deferred : Frame) (raised : List Frame) (u : Frame) (rest : List Frame) (hr : raised ≠ []) (hl : raised.length ≤ 3)
    (hd : ∀ f ∈ raised ++ u :: rest, '.' ∈ f.func) :
    ∃ r, recovered base getInfo deferred raised (u :: rest) = some r ∧ ∃ x, shownName u.func = some x ∧ (x, base u.file, u.line) ∈ r := by
  have hn : ∀ f ∈ raised ++ u :: rest, ∃ x, shownName f.func = some x := by
    intro f hf
    cases e : shownName f.func with
    | none => exact absurd (hd f hf) ((C103_name_panics _).1 e)
    | some x => exact ⟨x, rfl⟩
  obtain ⟨x, hx⟩ := hn u (by simp)
  have one : ∀ (stack : List Frame) i n, (∀ f, stack[i]? = some f → ∃ x, shownName f.func = some x) → (∀ j f, stack[j]? = some f → i ≤ j → ∃ x, shownName f.func = some x) →
      ∃ r, report base stack i n = some r := by
    intro stack i n
    induction n generalizing i with
    | zero => intro _ _; exact ⟨[], rfl⟩
    | succ n ih =>
      intro h0 h1
      simp only [report, caller]
      cases e : stack[i]? with
      | none => exact ⟨[], rfl⟩
      | some f =>
        obtain ⟨y, hy⟩ := h0 f e
        obtain ⟨r, hr⟩ := ih (i + 1) (fun f hf => h1 (i + 1) f hf (by omega)) (fun j f hf hj => h1 j f hf (by omega))
        exact ⟨(y, base f.file, f.line) :: r, by simp [hy, hr]⟩
  have tot : ∀ i n, 3 ≤ i → ∃ r, report base (getInfo :: deferred :: raised ++ u :: rest) i n = some r := by
    intro i n hi
    have key : ∀ j f, (getInfo :: deferred :: raised ++ u :: rest)[j]? = some f → 3 ≤ j → ∃ x, shownName f.func = some x := by
      intro j f hf hj
      obtain ⟨j, rfl⟩ : ∃ k, j = k + 2 := ⟨j - 2, by omega⟩
      simp only [List.cons_append, List.getElem?_cons_succ] at hf
      exact hn f (List.mem_of_getElem? hf)
    exact one _ i n (fun f hf => key i f hf hi) fun j f hf hj => key j f hf (by omega)
  have at2 : ∀ i n r, 3 ≤ i → report base (getInfo :: deferred :: raised ++ u :: rest) i n = some r → ∀ k, k < n → i + k = raised.length + 2 → (x, base u.file, u.line) ∈ r := by
    intro i n
    induction n generalizing i with
    | zero => intro r _ _ k hk; omega
    | succ n ih =>
      intro r hi hr k hk hik
      have hlt : i < (getInfo :: deferred :: raised ++ u :: rest).length := by simp; omega
      simp only [report, caller, List.getElem?_eq_getElem hlt] at hr
      obtain ⟨y, hy, hr⟩ := Option.bind_eq_some_iff.1 hr
      obtain ⟨r', hr', e⟩ := Option.map_eq_some_iff.1 hr
      subst e
      cases k with
      | zero =>
        have hu : (getInfo :: deferred :: raised ++ u :: rest)[i] = u := by
          have : i = raised.length + 2 := by omega
          subst this
          simp
        rw [hu] at hy ⊢
        rw [hx] at hy; cases hy
        simp
      | succ k =>
        exact List.mem_cons_of_mem _ (ih (i + 1) r' (by omega) hr' k (by omega) (by omega))
  obtain ⟨r, hr'⟩ := tot 3 3 (by omega)
  have h1 : 1 ≤ raised.length := List.length_pos_iff.2 hr
  exact ⟨r, hr', x, hx, at2 3 3 r (by omega) hr' (raised.length - 1) (by omega) (by omega)⟩

/-- A nil pointer in a handler of `main`. -/
example : recovered id ⟨"znet.getInfo".toList, [], 0⟩ ⟨"znet.RouterRecovery.func1".toList, [], 0⟩ [⟨"runtime.gopanic".toList, [], 0⟩, ⟨"runtime.panicmem".toList, [], 0⟩, ⟨"runtime.sigpanic".toList, [], 0⟩]
    [⟨"main.Handler".toList, "main.go".toList, 42⟩] = some [("panicmem".toList, [], 0), ("sigpanic".toList, [], 0), ("Handler".toList, "main.go".toList, 42)] := by decide +kernel

end Zinx.Props
