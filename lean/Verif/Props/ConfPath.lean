import Verif.Model.ConfPath

/-! # C146: which configuration file a process reads -/

namespace Zinx.Props

open Zinx Zinx.ConfPath

/-! ## Paths -/

theorem split_ne (p : Name) : split p ≠ [] := by
  cases p with
  | nil => simp [split]
  | cons c cs =>
    unfold split
    split
    · simp
    · split <;> simp

theorem split_append (b : Name) : ∀ a : Name, split (a ++ '/' :: b) = split a ++ split b
  | [] => by simp [split]
  | c :: cs => by
    have ih := split_append b cs
    rw [List.cons_append, split, split, ih]
    by_cases hc : c = '/'
    · simp [hc]
    · simp only [hc, if_false]
      cases h : split cs with
      | nil => exact absurd h (split_ne cs)
      | cons e es => simp

theorem split_plain : ∀ e : Name, '/' ∉ e → split e = [e]
  | [], _ => rfl
  | c :: cs, h => by
    simp only [List.mem_cons, not_or] at h
    rw [split, if_neg (fun e => h.1 e.symm), split_plain cs h.2]

theorem split_unsplit : ∀ es : List Name, (∀ e ∈ es, '/' ∉ e) → es ≠ [] → split (unsplit es) = es
  | [], _, h => absurd rfl h
  | [e], h, _ => by
    unfold unsplit
    exact split_plain e (h e (by simp))
  | e :: f :: es, h, _ => by
    unfold unsplit
    rw [split_append, split_plain e (h e (by simp)), split_unsplit (f :: es) (fun x hx => h x (List.mem_cons_of_mem _ hx)) (by simp)]
    rfl

theorem split_mem : ∀ (p e : Name), e ∈ split p → '/' ∉ e
  | [], e, h => by
    simp [split] at h
    subst h
    simp
  | c :: cs, e, h => by
    have ih := split_mem cs
    rw [split] at h
    by_cases hc : c = '/'
    · rw [if_pos hc] at h
      rcases List.mem_cons.1 h with rfl | h
      · simp
      · exact ih e h
    · rw [if_neg hc] at h
      cases hs : split cs with
      | nil => exact absurd hs (split_ne cs)
      | cons x xs =>
        rw [hs] at h ih
        rcases List.mem_cons.1 h with rfl | h
        · simp only [List.mem_cons, not_or]
          exact ⟨fun e => hc e.symm, ih x (by simp)⟩
        · exact ih e (List.mem_cons_of_mem _ h)

/-- An element that stands for an entry of a directory. -/
def PlainEl (e : Name) : Prop := e ≠ [] ∧ e ≠ dot ∧ e ≠ dotdot ∧ '/' ∉ e

theorem cleanStep_plain {kept : List Name} {e : Name} (hk : ∀ x ∈ kept, PlainEl x) (he : '/' ∉ e) : ∀ x ∈ cleanStep true kept e, PlainEl x := by
  unfold cleanStep
  by_cases h1 : e = [] ∨ e = dot
  · rw [if_pos h1]
    exact hk
  · rw [if_neg h1]
    by_cases h2 : e = dotdot
    · rw [if_pos h2]
      cases kept with
      | nil => simp
      | cons t ts =>
        dsimp only
        rw [if_neg (hk t (by simp)).2.2.1]
        exact fun x hx => hk x (List.mem_cons_of_mem _ hx)
    · rw [if_neg h2]
      intro x hx
      rcases List.mem_cons.1 hx with rfl | hx
      · exact ⟨fun h => h1 (.inl h), fun h => h1 (.inr h), h2, he⟩
      · exact hk x hx

theorem cleaned_plain : ∀ (es kept : List Name), (∀ e ∈ es, '/' ∉ e) → (∀ x ∈ kept, PlainEl x) → ∀ x ∈ es.foldl (cleanStep true) kept, PlainEl x
  | [], _, _, hk => hk
  | e :: es, kept, he, hk => cleaned_plain es _ (fun x hx => he x (List.mem_cons_of_mem _ hx)) (cleanStep_plain hk (he e (by simp)))

/-! ## Walks -/

theorem walk_append (fs : FS) : ∀ (as bs : List Name) (d : fs.Node), fs.walk d (as ++ bs) = (fs.walk d as).bind (fs.walk · bs)
  | [], _, _ => rfl
  | a :: as, bs, d => by
    have ih := walk_append fs as bs
    rw [List.cons_append, FS.walk, FS.walk]
    repeat' split
    all_goals first
      | rfl
      | exact ih _

theorem walk_plain {fs : FS} {d : fs.Node} {e : Name} (h : PlainEl e) : fs.walk d [e] = if fs.isDir d = false then none else fs.child d e := by
  obtain ⟨h1, h2, h3, _⟩ := h
  simp only [FS.walk]
  rw [if_neg (show ¬ (e = [] ∨ e = dot) by simp [h1, h2]), if_neg h3]
  cases fs.child d e <;> rfl

/-- Where the elements given lead, those kept by `Clean` lead, too, if no `..` follows a link. -/
theorem clean_walk (fs : FS) : ∀ (es kept : List Name) (d f : fs.Node), (∀ x ∈ kept, PlainEl x) → (∀ e ∈ es, '/' ∉ e) → fs.walk fs.root kept.reverse = some d →
    (dotdot ∈ es → ∀ a n b, fs.child a n = some b → fs.isDir b = true → fs.up b = a) →
    fs.walk d es = some f → fs.walk fs.root (es.foldl (cleanStep true) kept).reverse = some f
  | [], _, d, f, _, _, h, _, hf => by
    cases hf
    exact h
  | e :: es, kept, d, f, hk, he, h, hl, hf => by
    have hk' := cleanStep_plain hk (he e (by simp))
    have he' : ∀ x ∈ es, '/' ∉ x := fun x hx => he x (List.mem_cons_of_mem _ hx)
    have hl' := fun hm => hl (List.mem_cons_of_mem _ hm)
    rw [FS.walk] at hf
    cases hd : fs.isDir d with
    | false => simp [hd] at hf
    | true =>
      simp only [hd, Bool.true_eq_false, if_false] at hf
      rw [List.foldl_cons]
      by_cases h1 : e = [] ∨ e = dot
      · rw [if_pos h1] at hf
        have e1 : cleanStep true kept e = kept := by unfold cleanStep; rw [if_pos h1]
        rw [e1]
        exact clean_walk fs es kept d f hk he' h hl' hf
      · rw [if_neg h1] at hf
        by_cases h2 : e = dotdot
        · rw [if_pos h2] at hf
          refine clean_walk fs es _ (fs.up d) f hk' he' ?_ hl' hf
          unfold cleanStep
          rw [if_neg h1, if_pos h2]
          cases kept with
          | nil =>
            cases h
            simp [FS.walk, fs.upRoot]
          | cons t ts =>
            have ht := hk t (by simp)
            dsimp only
            rw [if_neg ht.2.2.1]
            rw [List.reverse_cons, walk_append] at h
            cases h3 : fs.walk fs.root ts.reverse with
            | none => simp [h3] at h
            | some a =>
              rw [h3, Option.bind_some, walk_plain ht] at h
              cases ha : fs.isDir a with
              | false => simp [ha] at h
              | true =>
                simp only [ha, Bool.true_eq_false, if_false] at h
                rw [hl (by simp [h2]) a t d h hd]
        · rw [if_neg h2] at hf
          have e1 : cleanStep true kept e = e :: kept := by unfold cleanStep; rw [if_neg h1, if_neg h2]
          rw [e1] at hk' ⊢
          cases hc : fs.child d e with
          | none => simp [hc] at hf
          | some n =>
            rw [hc] at hf
            refine clean_walk fs es (e :: kept) n f hk' he' ?_ hl' hf
            rw [List.reverse_cons, walk_append, h, Option.bind_some, walk_plain (hk' e (by simp)), hd, hc]
            rfl

/-- A rooted path means the same in every working directory. -/
theorem at_rooted {fs : FS} {p : Name} (h : rooted p = true) (c c' : fs.Node) : fs.at c p = fs.at c' p := by
  unfold FS.at
  rw [h]
  rfl

theorem clean_rooted {p : Name} (h : rooted p = true) : rooted (clean p) = true := by
  unfold clean
  simp only [h, if_true]
  rfl

theorem at_clean {fs : FS} {p : Name} (h : rooted p = true) (c : fs.Node) : fs.at c (clean p) = fs.walk fs.root ((split p).foldl (cleanStep true) []).reverse := by
  unfold FS.at
  rw [clean_rooted h]
  have hp : ∀ x ∈ ((split p).foldl (cleanStep true) []).reverse, '/' ∉ x := fun x hx =>
    (cleaned_plain (split p) [] (split_mem p) (by simp) x (List.mem_reverse.1 hx)).2.2.2
  unfold clean
  simp only [h, if_true]
  generalize ((split p).foldl (cleanStep true) []).reverse = es at hp
  cases es with
  | nil => simp [unsplit, split, FS.walk, fs.dirRoot]
  | cons e es =>
    have := split_append (unsplit (e :: es)) []
    rw [List.nil_append] at this
    rw [this, split_unsplit _ hp (by simp)]
    simp [split, FS.walk, fs.dirRoot]

/-- The path that is made of what the process was given: itself if it is rooted, else behind the working directory; if nothing was given, that of the file in the working directory. -/
def askedFor (value w : Name) : Name :=
  if value = [] then w ++ '/' :: defaultPath else if rooted value then value else w ++ '/' :: value

theorem asked_rooted {value w : Name} (hw : rooted w = true) : rooted (askedFor value w) = true := by
  unfold askedFor
  have : ∀ x, rooted (w ++ x) = true := by
    intro x
    cases w with
    | nil => cases hw
    | cons c cs =>
      by_cases hc : c = '/'
      · subst hc
        rfl
      · exfalso
        unfold rooted at hw
        split at hw
        · rename_i h; cases h; exact hc rfl
        · cases hw
  split
  · exact this _
  · split
    · assumption
    · exact this _

theorem clean_clean {p : Name} (h : rooted p = true) : clean (clean p) = clean p := by
  have hp := cleaned_plain (split p) [] (split_mem p) (by simp)
  have e0 : clean p = '/' :: unsplit ((split p).foldl (cleanStep true) []).reverse := by
    unfold clean
    simp [h]
  rw [e0]
  generalize hes : ((split p).foldl (cleanStep true) []) = es at hp
  have hk : ∀ (xs kept : List Name), (∀ x ∈ xs, PlainEl x) → xs.foldl (cleanStep true) kept = xs.reverse ++ kept := by
    intro xs
    induction xs with
    | nil => intro kept _; rfl
    | cons x xs ih =>
      intro kept hx
      obtain ⟨a, b, c, _⟩ := hx x (by simp)
      rw [List.foldl_cons, ih _ (fun y hy => hx y (List.mem_cons_of_mem _ hy))]
      unfold cleanStep
      rw [if_neg (show ¬ (x = [] ∨ x = dot) by simp [a, b]), if_neg c]
      simp
  have e1 : (split ('/' :: unsplit es.reverse)).foldl (cleanStep true) [] = es := by
    have := split_append (unsplit es.reverse) []
    rw [List.nil_append] at this
    rw [this]
    cases hn : es with
    | nil => rfl
    | cons e es' =>
      rw [← hn, split_unsplit _ (fun x hx => (hp x (List.mem_reverse.1 hx)).2.2.2) (by simp [hn])]
      show (([] : Name) :: es.reverse).foldl _ _ = _
      rw [List.foldl_cons]
      have : cleanStep true [] [] = [] := rfl
      rw [this, hk _ _ (fun x hx => hp x (List.mem_reverse.1 hx))]
      simp
  unfold clean
  simp only [rooted, if_true, e1]

theorem path_asked {value w : Name} (hw : rooted w = true) : configFilePath value (some w) = some (clean (askedFor value w)) := by
  unfold configFilePath askedFor absPath
  by_cases hv : value = []
  · simp only [hv, if_true]
    have hj : rooted (w ++ '/' :: defaultPath) = true := by
      have := asked_rooted (value := []) hw
      simpa [askedFor] using this
    unfold join
    rw [if_pos (clean_rooted hj), clean_clean hj]
  · simp only [hv, if_false]
    by_cases hr : rooted value = true
    · simp [hr]
    · simp [hr, join]

theorem asked_at {fs : FS} {cwd : fs.Node} {w : Name} (hw : rooted w = true) (hc : fs.at cwd w = some cwd) (value : Name) :
    fs.at cwd (askedFor value w) = fs.at cwd (if value = [] then defaultPath.tail else value) := by
  have e : ∀ b, rooted b = false → fs.at cwd (w ++ '/' :: b) = fs.at cwd b := by
    intro b hb
    have hr : rooted (w ++ '/' :: b) = true := by
      have := asked_rooted (value := b) hw
      unfold askedFor at this
      by_cases h : b = []
      · subst h
        cases w with
        | nil => rfl
        | cons c cs => revert hw; simp only [List.cons_append, rooted]; split <;> simp_all [rooted]
      · simpa [h, hb] using this
    unfold FS.at at hc ⊢
    rw [hw] at hc
    simp only [if_true] at hc
    rw [hr, hb]
    simp only [if_true, Bool.false_eq_true, if_false]
    rw [split_append, walk_append, hc]
    rfl
  unfold askedFor
  by_cases hv : value = []
  · simp only [hv, if_true]
    have h2 : w ++ '/' :: defaultPath = w ++ '/' :: '/' :: defaultPath.tail := rfl
    have h3 : fs.at cwd (w ++ '/' :: '/' :: defaultPath.tail) = fs.at cwd (w ++ '/' :: defaultPath.tail) := by
      have hr : ∀ x, rooted (w ++ '/' :: x) = true := by
        intro x
        cases w with
        | nil => rfl
        | cons c cs => revert hw; simp only [List.cons_append, rooted]; split <;> simp_all [rooted]
      unfold FS.at at hc ⊢
      rw [hw] at hc
      simp only [if_true] at hc
      rw [hr, hr]
      simp only [if_true]
      rw [split_append, split_append, walk_append, walk_append, hc]
      simp only [Option.bind_some]
      have : split ('/' :: defaultPath.tail) = [] :: split defaultPath.tail := by simp [split]
      rw [this, FS.walk]
      cases hd : fs.isDir cwd with
      | true => simp
      | false => simp [defaultPath, split, FS.walk, hd]
    rw [h2, h3]
    exact e _ rfl
  · simp only [hv, if_false]
    cases hr : rooted value with
    | true => simp
    | false => simpa [hr] using e value hr

/-! ## C146 -/

/-- **C146**: the path. It is rooted, so that it names the same file whatever the working directory becomes; and it is what was asked for with the elements that `Clean` takes away. No process gets past the
initialiser without one: it panics exactly if the working directory cannot be found out and is needed. -/
theorem C146_path (value : Name) (wd : Option Name) (hw : ∀ w, wd = some w → rooted w = true) :
    (configFilePath value wd = none ↔ wd = none ∧ (value = [] ∨ rooted value = false)) ∧
    ∀ p, configFilePath value wd = some p → rooted p = true ∧ clean p = p ∧ ∀ (fs : FS) (c c' : fs.Node), fs.at c p = fs.at c' p := by
  cases wd with
  | none =>
    unfold configFilePath absPath
    by_cases hv : value = []
    · simp [hv]
    · cases hr : rooted value with
      | false => simp [hv]
      | true =>
        simp only [hv, if_false, if_true, Option.some.injEq, false_or]
        refine ⟨by simp, ?_⟩
        rintro p rfl
        exact ⟨clean_rooted hr, clean_clean hr, fun fs c c' => at_rooted (clean_rooted hr) c c'⟩
  | some w =>
    have h := asked_rooted (value := value) (hw w rfl)
    rw [path_asked (hw w rfl)]
    refine ⟨by simp, ?_⟩
    intro p hp
    cases hp
    exact ⟨clean_rooted h, clean_clean h, fun fs c c' => at_rooted (clean_rooted h) c c'⟩

/-- **C146**: the file that is read is the one that was named, if no `..` follows a link in what was named or in the path of the working directory: there is no `..` at all, or there are no links to
directories. `w` is what `os.Getwd` says, a rooted path of the working directory. -/
theorem C146_partial {α : Type} (fs : FS) (cwd : fs.Node) (parse : Bytes → Option α) (value w : Name) (hw : rooted w = true) (hc : fs.at cwd w = some cwd)
    (hl : dotdot ∈ split (askedFor value w) → ∀ a n b, fs.child a n = some b → fs.isDir b = true → fs.up b = a)
    (f : fs.Node) (hf : fs.at cwd (if value = [] then defaultPath.tail else value) = some f) :
    start fs cwd parse value (some w) =
      match fs.read f with
      | none => .panics
      | some b =>
        match parse b with
        | none => .panics
        | some c => .settings c := by
  have hr := asked_rooted (value := value) hw
  rw [← asked_at hw hc] at hf
  unfold start reload
  rw [path_asked hw]
  dsimp only
  have : fs.at cwd (clean (askedFor value w)) = some f := by
    rw [at_clean hr]
    refine clean_walk fs _ [] fs.root f (by simp) (split_mem _) rfl hl ?_
    unfold FS.at at hf
    rw [hr] at hf
    exact hf
  rw [this]
  rfl

/-- Without `.` and empty elements, the last of which is an entry, a walk is the same. -/
theorem walk_filter (fs : FS) : ∀ (es : List Name) (d : fs.Node), (∀ e ∈ es, e ≠ dotdot) → (∀ e, es.getLast? = some e → e ≠ [] ∧ e ≠ dot) →
    fs.walk d es = fs.walk d (es.filter fun e => e ≠ [] ∧ e ≠ dot)
  | [], _, _, _ => rfl
  | e :: es, d, hd, hl => by
    have hd' : ∀ x ∈ es, x ≠ dotdot := fun x hx => hd x (List.mem_cons_of_mem _ hx)
    have hl' : ∀ x, es.getLast? = some x → x ≠ [] ∧ x ≠ dot := by
      intro x hx
      cases es with
      | nil => cases hx
      | cons y ys => exact hl x (by simpa [List.getLast?_cons_cons] using hx)
    have ih := fun d => walk_filter fs es d hd' hl'
    by_cases h1 : e ≠ [] ∧ e ≠ dot
    · rw [List.filter_cons_of_pos (by simp [h1]), FS.walk, FS.walk]
      simp only [ih]
    · rw [List.filter_cons_of_neg (by simpa using h1), FS.walk]
      have h2 : e = [] ∨ e = dot := by
        by_cases h : e = []
        · exact .inl h
        · exact .inr (Classical.byContradiction fun h' => h1 ⟨h, h'⟩)
      rw [if_pos h2, ih]
      cases hi : fs.isDir d with
      | true => simp
      | false =>
        simp only [if_true]
        cases es with
        | nil => exact absurd (hl e rfl) h1
        | cons y ys =>
          have hm : (y :: ys).getLast (by simp) ∈ (y :: ys).filter (fun e => e ≠ [] ∧ e ≠ dot) := by
            rw [List.mem_filter]
            exact ⟨List.getLast_mem _, by simpa using hl' _ (List.getLast?_eq_some_getLast _)⟩
          generalize (y :: ys).filter (fun e => e ≠ [] ∧ e ≠ dot) = zs at hm
          cases zs with
          | nil => cases hm
          | cons z zs => simp [FS.walk, hi]

theorem clean_filter : ∀ (es kept : List Name), (∀ e ∈ es, e ≠ dotdot) → es.foldl (cleanStep true) kept = (es.filter fun e => e ≠ [] ∧ e ≠ dot).reverse ++ kept
  | [], _, _ => rfl
  | e :: es, kept, hd => by
    rw [List.foldl_cons, clean_filter es _ (fun x hx => hd x (List.mem_cons_of_mem _ hx))]
    unfold cleanStep
    by_cases h : e = [] ∨ e = dot
    · rw [if_pos h, List.filter_cons_of_neg]
      rcases h with h | h <;> simp [h]
    · rw [if_neg h, if_neg (hd e (by simp)), List.filter_cons_of_pos]
      · simp
      · simp only [not_or] at h
        simpa using h

/-- **C146**: the defaults stay if there is no file of that name, provided no `..` and no slash or `.` at the end is in it. -/
theorem C146_missing_partial {α : Type} (fs : FS) (cwd : fs.Node) (parse : Bytes → Option α) (value w : Name) (hw : rooted w = true) (hc : fs.at cwd w = some cwd)
    (hd : dotdot ∉ split (askedFor value w)) (hl : ∀ e, (split (askedFor value w)).getLast? = some e → e ≠ [] ∧ e ≠ dot)
    (hf : fs.at cwd (if value = [] then defaultPath.tail else value) = none) : start fs cwd parse value (some w) = .defaults := by
  have hr := asked_rooted (value := value) hw
  rw [← asked_at hw hc] at hf
  have hd' : ∀ e ∈ split (askedFor value w), e ≠ dotdot := fun e he h => hd (h ▸ he)
  unfold start reload
  rw [path_asked hw]
  dsimp only
  rw [at_clean hr, clean_filter _ _ hd', List.append_nil, List.reverse_reverse, ← walk_filter fs _ _ hd' hl]
  unfold FS.at at hf
  rw [hr] at hf
  simp only [if_true] at hf
  rw [hf]

/-- A file system: the root 0 with a directory `a` (1), in it a directory `b` (2); a link `l` in the root leads to `b`. There are files `z` in the root (3) and in `a` (4). -/
abbrev linkedFs : FS where
  Node := Nat
  root := 0
  isDir d := decide (d < 3)
  child d n := if d = 0 ∧ n = ['a'] then some 1 else if d = 1 ∧ n = ['b'] then some 2 else if d = 0 ∧ n = ['l'] then some 2 else if d = 0 ∧ n = ['z'] then some 3 else if d = 1 ∧ n = ['z'] then some 4 else none
  up d := d - 1
  read d := if d < 3 then none else some [UInt8.ofNat d]
  dirRoot := rfl
  upRoot := rfl

/-- **C146** is false of the code. In a directory that was entered through a link, `../z` names the file in the directory above; the process reads another one, in the directory of the link. The same with the link
in a rooted path. And a path through a directory that does not exist leads to a file. -/
theorem C146_refuted :
    linkedFs.at (2 : Nat) ['/', 'l'] = some (2 : Nat) ∧ linkedFs.at (2 : Nat) ['.', '.', '/', 'z'] = some (4 : Nat) ∧
    start linkedFs (2 : Nat) some ['.', '.', '/', 'z'] (some ['/', 'l']) = .settings [3] ∧
    linkedFs.at (0 : Nat) ['/', 'l', '/', '.', '.', '/', 'z'] = some (4 : Nat) ∧
    start linkedFs (0 : Nat) some ['/', 'l', '/', '.', '.', '/', 'z'] (some ['/']) = .settings [3] ∧
    linkedFs.at (0 : Nat) ['x', '/', '.', '.', '/', 'z'] = none ∧
    start linkedFs (0 : Nat) some ['x', '/', '.', '.', '/', 'z'] (some ['/']) = .settings [3] := by
  refine ⟨?_, ?_, ?_, ?_, ?_, ?_, ?_⟩ <;> decide +kernel

example : rooted ['/', 'a', '/', 'b'] = true ∧ linkedFs.at (2 : Nat) ['/', 'a', '/', 'b'] = some (2 : Nat) ∧ dotdot ∉ split (askedFor ['/', 'a', '/', '.', '/', 'z'] ['/', 'a', '/', 'b']) ∧
    linkedFs.at (2 : Nat) ['/', 'a', '/', '.', '/', 'z'] = some (4 : Nat) ∧ start linkedFs (2 : Nat) some ['/', 'a', '/', '.', '/', 'z'] (some ['/', 'a', '/', 'b']) = .settings [4] := by decide +kernel

example : linkedFs.at (1 : Nat) defaultPath.tail = none ∧ dotdot ∉ split (askedFor [] ['/', 'a']) ∧ (split (askedFor [] ['/', 'a'])).getLast? = some ['z', 'i', 'n', 'x', '.', 'j', 's', 'o', 'n'] ∧
    start linkedFs (1 : Nat) some [] (some ['/', 'a']) = .defaults := by decide +kernel

end Zinx.Props
