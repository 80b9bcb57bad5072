import Verif.Lemmas.Log

/-! # C60 and C61: log lines -/

namespace Zinx.Props

open Zinx Zinx.Log

/-! ## C61 -/

/-- The bracketed name of a level. -/
def levelText : Nat → Bytes
  | 0 => lit "[DEBUG]"
  | 1 => lit "[INFO]"
  | 2 => lit "[WARN]"
  | 3 => lit "[ERROR]"
  | 4 => lit "[PANIC]"
  | _ => lit "[FATAL]"

/-- The header for given texts of the numbers and of the file name. Bits 0 to 5 of the flags select date, time, microseconds (with the time), full file
name, last element of the file name (taking precedence), level. -/
def headerText (pre : Bytes) (flag : BitVec 64) (level : Nat) (file short y mo d h mi s us ln : Bytes) : Bytes :=
  (if pre = [] then [] else lit "<" ++ pre ++ lit ">") ++
  (if flag.getLsbD 0 then y ++ lit "/" ++ mo ++ lit "/" ++ d ++ lit " " else []) ++
  (if flag.getLsbD 1 || flag.getLsbD 2 then
    h ++ lit ":" ++ mi ++ lit ":" ++ s ++ (if flag.getLsbD 2 then lit "." ++ us else []) ++ lit " " else []) ++
  (if flag.getLsbD 5 then levelText level else []) ++
  (if flag.getLsbD 4 || flag.getLsbD 3 then (if flag.getLsbD 4 then short else file) ++ lit ":" ++ ln ++ lit ": " else [])

/-- A time with all fields in Go's ranges and year in the 64-bit range. -/
structure Sensible (t : Time) : Prop where
  year : 0 ≤ t.year ∧ t.year < 2 ^ 63
  month : 1 ≤ t.month ∧ t.month ≤ 12
  day : 1 ≤ t.day ∧ t.day ≤ 31
  hour : 0 ≤ t.hour ∧ t.hour < 24
  min : 0 ≤ t.min ∧ t.min < 60
  sec : 0 ≤ t.sec ∧ t.sec < 60
  nano : 0 ≤ t.nano ∧ t.nano < 1000000000

/-- **C61 (some time flag set).** If at least one of the date, time and microsecond flags is set, the header consists of the parts selected by the
flags, the numbers being decimals padded to the documented widths. Missing: with none of those three flags set, level and file parts are left out, see
`C61_no_time_flag` and `C61_refuted`. -/
theorem C61_partial (pre : Bytes) (flag : BitVec 64) (t : Time) (file : Bytes) (line : Int) (level : Nat)
    (ht : Sensible t) (hline : 0 ≤ line ∧ line < 2 ^ 63) (hlevel : level ≤ 5)
    (hflag : flag.getLsbD 0 || flag.getLsbD 1 || flag.getLsbD 2) :
    ∃ short y mo d h mi s us ln, IsShort file short ∧ IsDec 4 t.year.toNat y ∧ IsDec 2 t.month.toNat mo ∧ IsDec 2 t.day.toNat d ∧
      IsDec 2 t.hour.toNat h ∧ IsDec 2 t.min.toNat mi ∧ IsDec 2 t.sec.toNat s ∧ IsDec 6 (t.nano.toNat / 1000) us ∧ IsDec 0 line.toNat ln ∧
      formatHeader pre flag t file line level = some (headerText pre flag level file short y mo d h mi s us ln) := by
  obtain ⟨h1, h2, h3, h4, h5, h6, h7⟩ := ht
  obtain ⟨y, ey, dy⟩ := itoa_dec (wid := 4) h1.1 h1.2 (by decide)
  obtain ⟨mo, em, dm⟩ := itoa_dec (i := t.month) (wid := 2) (by omega) (by omega) (by decide)
  obtain ⟨d, ed, dd⟩ := itoa_dec (i := t.day) (wid := 2) (by omega) (by omega) (by decide)
  obtain ⟨h, eh, dh⟩ := itoa_dec (i := t.hour) (wid := 2) (by omega) (by omega) (by decide)
  obtain ⟨mi, emi, dmi⟩ := itoa_dec (i := t.min) (wid := 2) (by omega) (by omega) (by decide)
  obtain ⟨s, es, ds⟩ := itoa_dec (i := t.sec) (wid := 2) (by omega) (by omega) (by decide)
  have hn : t.nano.tdiv 1000 = ((t.nano.toNat / 1000 : Nat) : Int) := by
    rw [Int.tdiv_eq_ediv_of_nonneg h7.1]; omega
  obtain ⟨us, eu, du⟩ := itoa_dec (i := t.nano.tdiv 1000) (wid := 6) (by omega) (by omega) (by decide)
  obtain ⟨ln, el, dl⟩ := itoa_dec (wid := -1) hline.1 hline.2 (by decide)
  have dn : (t.nano.tdiv 1000).toNat = t.nano.toNat / 1000 := by omega
  rw [dn] at du
  refine ⟨_, y, mo, d, h, mi, s, us, ln, short_spec file, dy, dm, dd, dh, dmi, ds, du, dl, ?_⟩
  unfold formatHeader
  rw [hasAny_or, hasAny_or, hasAny_date, hasAny_time, hasAny_micro, if_pos hflag]
  have e1 : datePart flag t = some (if flag.getLsbD 0 then y ++ lit "/" ++ mo ++ lit "/" ++ d ++ lit " " else []) := by
    unfold datePart
    rw [hasAny_date]
    cases flag.getLsbD 0
    · rfl
    · rw [if_pos rfl, ey, em, ed]; rfl
  have e2 : timePart flag t = some (if flag.getLsbD 1 || flag.getLsbD 2 then
      h ++ lit ":" ++ mi ++ lit ":" ++ s ++ (if flag.getLsbD 2 then lit "." ++ us else []) ++ lit " " else []) := by
    unfold timePart
    rw [hasAny_or, hasAny_time, hasAny_micro]
    cases flag.getLsbD 1 || flag.getLsbD 2
    · rfl
    · rw [if_pos rfl, if_pos rfl, eh, emi, es, eu]
      cases flag.getLsbD 2 <;> rfl
  have e3 : levelPart flag level = some (if flag.getLsbD 5 then levelText level else []) := by
    unfold levelPart
    rw [hasAny_level]
    cases flag.getLsbD 5
    · rfl
    · rw [if_pos rfl, if_pos rfl, if_neg (by omega)]
      match level, hlevel with
      | 0, _ => rfl
      | 1, _ => rfl
      | 2, _ => rfl
      | 3, _ => rfl
      | 4, _ => rfl
      | 5, _ => rfl
  have e4 : filePart flag file line = some (if flag.getLsbD 4 || flag.getLsbD 3 then
      (if flag.getLsbD 4 then shortFrom file (file.length - 1) else file) ++ lit ":" ++ ln ++ lit ": " else []) := by
    unfold filePart
    rw [hasAny_or, hasAny_short, hasAny_long]
    cases flag.getLsbD 4 || flag.getLsbD 3
    · rfl
    · rw [if_pos rfl, if_pos rfl, el]; rfl
  rw [e1, e2, e3, e4]
  by_cases hp : pre = []
  · subst hp; rfl
  · unfold headerText
    rw [if_neg hp, if_pos hp]
    rfl

/-- **C61 (no time flag set).** Otherwise the header is the prefix only. -/
theorem C61_no_time_flag (pre : Bytes) (flag : BitVec 64) (t : Time) (file : Bytes) (line : Int) (level : Int)
    (hflag : (flag.getLsbD 0 || flag.getLsbD 1 || flag.getLsbD 2) = false) :
    formatHeader pre flag t file line level = some (if pre = [] then [] else lit "<" ++ pre ++ lit ">") := by
  unfold formatHeader
  rw [hasAny_or, hasAny_or, hasAny_date, hasAny_time, hasAny_micro, hflag]
  by_cases hp : pre = []
  · subst hp; rfl
  · rw [if_neg hp]
    dsimp only
    rw [if_pos hp]
    rfl

/-- **C61 refuted.** With the level flag alone the header does not show the level. -/
theorem C61_refuted (t : Time) (file : Bytes) (line : Int) :
    formatHeader [] 32#64 t file line 3 = some [] ∧ ∀ short y mo d h mi s us ln, headerText [] 32#64 3 file short y mo d h mi s us ln = lit "[ERROR]" :=
  ⟨rfl, fun _ _ _ _ _ _ _ _ _ => rfl⟩

/-- The default flags. -/
example : formatHeader [] (32 ||| 16 ||| 3) ⟨2019, 4, 11, 1, 15, 33, 123456789⟩ (lit "/src/zinx/server.go") 42 1 =
    some (lit "2019/04/11 01:15:33 [INFO]server.go:42: ") := by decide +kernel

example : Sensible ⟨2019, 4, 11, 1, 15, 33, 123456789⟩ := ⟨by decide, by decide, by decide, by decide, by decide, by decide, by decide⟩

/-! ## C60 -/

theorem header_total (pre : Bytes) (flag : BitVec 64) (t : Time) (file : Bytes) (line : Int) (m : Method) :
    ∃ h, formatHeader pre flag t file line m.level = some h := by
  obtain ⟨y, ey, _⟩ := itoa_total t.year 4 (by decide)
  obtain ⟨mo, em, _⟩ := itoa_total t.month 2 (by decide)
  obtain ⟨d, ed, _⟩ := itoa_total t.day 2 (by decide)
  obtain ⟨h, eh, _⟩ := itoa_total t.hour 2 (by decide)
  obtain ⟨mi, emi, _⟩ := itoa_total t.min 2 (by decide)
  obtain ⟨s, es, _⟩ := itoa_total t.sec 2 (by decide)
  obtain ⟨us, eu, _⟩ := itoa_total (t.nano.tdiv 1000) 6 (by decide)
  obtain ⟨ln, el, _⟩ := itoa_total line (-1) (by decide)
  have e1 : ∃ a, datePart flag t = some a := by
    unfold datePart
    rw [ey, em, ed]
    split <;> exact ⟨_, rfl⟩
  have e2 : ∃ a, timePart flag t = some a := by
    unfold timePart
    rw [eh, emi, es, eu]
    cases hasAny flag bitMicroSeconds <;> split <;> exact ⟨_, rfl⟩
  have e3 : ∃ a, levelPart flag m.level = some a := by
    unfold levelPart
    cases m <;> split <;> exact ⟨_, rfl⟩
  have e4 : ∃ a, filePart flag file line = some a := by
    unfold filePart
    rw [el]
    split <;> exact ⟨_, rfl⟩
  obtain ⟨a1, e1⟩ := e1
  obtain ⟨a2, e2⟩ := e2
  obtain ⟨a3, e3⟩ := e3
  obtain ⟨a4, e4⟩ := e4
  unfold formatHeader
  rw [e1, e2, e3, e4]
  dsimp only
  cases hasAny flag (bitDate ||| bitTime ||| bitMicroSeconds) <;> exact ⟨_, rfl⟩

/-- How each method ends once it has written its line. -/
def afterwards : Method → After
  | .fatal => .exits
  | .panic => .panics
  | _ => .returns

/-- The level of each method, as documented: debug 0 to fatal 5. -/
def rank : Method → Int
  | .debug => 0 | .info => 1 | .warn => 2 | .error => 3 | .panic => 4 | .fatal => 5 | .stack => 3

/-- A single piece of output consisting of some header, the text, and a newline if the text lacks one, given to the file or to standard error, and to
the hook if there is one. -/
def OneLine (c : Logger) (s : Bytes) (o : Out) : Prop :=
  ∃ h, o.bytes = h ++ s ++ (if s.getLast? = some 10 then [] else [10]) ∧ o.sink = (if c.hasFile then .file else .stderr) ∧
    o.hooked = (if c.hasHook then some o.bytes else none)

theorem outPut_line (c : Logger) (x : Ctx) (m : Method) (s : Bytes) (hs : s ≠ []) :
    ∃ o, outPut c x m.level s = some o ∧ OneLine c s o := by
  obtain ⟨h, e⟩ := header_total c.pre c.flag x.time (if hasAny c.flag (bitShortFile ||| bitLongFile) then x.file else [])
    (if hasAny c.flag (bitShortFile ||| bitLongFile) then x.line else 0) m
  have e2 : (if s.length > 0 ∧ s.getLast? ≠ some 10 then [10] else ([] : Bytes)) = if s.getLast? = some 10 then [] else [10] := by
    have hl : s.length > 0 := List.length_pos_iff.mpr hs
    by_cases h : s.getLast? = some 10
    · rw [if_pos h, if_neg (fun x => x.2 h)]
    · rw [if_neg h, if_pos ⟨hl, h⟩]
  refine ⟨⟨if c.hasFile then .file else .stderr, h ++ s ++ (if s.getLast? = some 10 then [] else [10]),
    if c.hasHook then some (h ++ s ++ (if s.getLast? = some 10 then [] else [10])) else none⟩, ?_, h, rfl, rfl, rfl⟩
  unfold outPut
  dsimp only
  rw [e, e2]
  rfl

/-- **C60 (levelled methods, non-empty text).** A message is output iff its level is at least the isolation level; the output is one piece: a header,
the text, and a newline if the text lacked one. A suppressed call does nothing at all, not even exit or panic. Missing: `Stack`, which ignores the
isolation level, and empty texts, which get no newline; see `C60_refuted`. -/
theorem C60_partial (c : Logger) (x : Ctx) (m : Method) (s : Bytes) (hm : m ≠ .stack) (hs : s ≠ []) :
    (c.isolation ≤ rank m → ∃ o, call c x m s = some ([o], afterwards m) ∧ OneLine c s o) ∧
    (rank m < c.isolation → call c x m s = some ([], .returns)) := by
  obtain ⟨o, e, ho⟩ := outPut_line c x m s hs
  constructor
  · intro hl
    refine ⟨o, ?_, ho⟩
    have hv : verifyLogIsolation c m.level = false := by
      unfold verifyLogIsolation
      rw [decide_eq_false_iff_not]
      cases m <;> simp only [rank, Method.level] at * <;> omega
    cases m <;> first | exact absurd rfl hm | (unfold call; dsimp only; rw [hv, e]; rfl)
  · intro hl
    have hv : verifyLogIsolation c m.level = true := by
      unfold verifyLogIsolation
      rw [decide_eq_true_iff]
      cases m <;> simp only [rank, Method.level] at * <;> omega
    cases m <;> first | exact absurd rfl hm | (unfold call; dsimp only; rw [hv]; rfl)

/-- Any level's call on a default logger. -/
example : call ⟨[], 32 ||| 16 ||| 3, 2, false, false⟩ ⟨⟨2019, 4, 11, 1, 15, 33, 0⟩, lit "/a/b.go", 7⟩ .warn (lit "hello") =
    some ([⟨.stderr, lit "2019/04/11 01:15:33 [WARN]b.go:7: hello\n", none⟩], .returns) ∧
    call ⟨[], 32 ||| 16 ||| 3, 2, false, false⟩ ⟨⟨2019, 4, 11, 1, 15, 33, 0⟩, lit "/a/b.go", 7⟩ .info (lit "hello") = some ([], .returns) := by
  decide +kernel

/-- **C60 refuted.** An empty text gets no newline, so the next message continues the same line; `Stack` writes at level error whatever the isolation
level; and a suppressed `Fatal` does not end the program. -/
theorem C60_refuted :
    (∃ c x o, call c x .info [] = some ([o], .returns) ∧ o.bytes ≠ [] ∧ o.bytes.getLast? ≠ some 10) ∧
    (∃ c x o, rank .stack < c.isolation ∧ call c x .stack (lit "x") = some ([o], .returns)) ∧
    (∃ c x, call c x .fatal (lit "x") = some ([], .returns)) := by
  refine ⟨⟨⟨[], 3, 0, false, false⟩, ⟨⟨2019, 4, 11, 1, 15, 33, 0⟩, [], 0⟩, ⟨.stderr, lit "2019/04/11 01:15:33 ", none⟩, ?_⟩,
    ⟨⟨[], 0, 6, false, false⟩, ⟨⟨2019, 4, 11, 1, 15, 33, 0⟩, [], 0⟩, ⟨.stderr, lit "x\n", none⟩, ?_⟩,
    ⟨⟨[], 0, 6, false, false⟩, ⟨⟨2019, 4, 11, 1, 15, 33, 0⟩, [], 0⟩, ?_⟩⟩
  · decide +kernel
  · decide +kernel
  · decide +kernel

end Zinx.Props
