/-!
# Removing old log archives (zutils/witer.go:168-200)

Names are lists of characters. A wall-clock time is its calendar fields down to microseconds, an instant is a number of microseconds since 1970 UTC.
`time.Format` and `time.Parse` are modelled for the one layout used, as they are in the Go library (years 0 to 9999). The local time zone has a fixed
offset, so that `AddDate(0, 0, -n)` is `n` times 24 hours earlier; int overflow for a huge `maxAge` is left out. Reading the directory and removing files
is taken to succeed.
-/

namespace Zinx.LogClean

/-- Calendar fields of a `time.Time` as used by the layout `.2006-01-02-150405.000000` (zutils/witer.go:196,199). -/
structure Wall where
  year : Nat
  month : Nat
  day : Nat
  hour : Nat
  minute : Nat
  second : Nat
  micro : Nat
  deriving DecidableEq, Repr

/-- Gregorian leap years. The package `time` as used in zutils/witer.go:169-200; no code of zinx. -/
def leap (y : Nat) : Bool := y % 4 = 0 && (y % 100 ≠ 0 || y % 400 = 0)

/-- Days of a month. The package `time` as used in zutils/witer.go:169-200; no code of zinx. -/
def daysIn (y m : Nat) : Nat :=
  match m with
  | 1 => 31 | 2 => if leap y then 29 else 28 | 3 => 31 | 4 => 30 | 5 => 31 | 6 => 30
  | 7 => 31 | 8 => 31 | 9 => 30 | 10 => 31 | 11 => 30 | 12 => 31 | _ => 0

/-- A date and time that exists and that the layout can print. The package `time` as used in zutils/witer.go:169-200; no code of zinx. -/
def Wall.Valid (w : Wall) : Prop :=
  w.year < 10000 ∧ 1 ≤ w.month ∧ w.month ≤ 12 ∧ 1 ≤ w.day ∧ w.day ≤ daysIn w.year w.month ∧ w.hour < 24 ∧ w.minute < 60 ∧ w.second < 60 ∧
    w.micro < 1000000

instance (w : Wall) : Decidable w.Valid := by unfold Wall.Valid; infer_instance

/-- Days of the year before the first of month `m`. The package `time` as used in zutils/witer.go:169-200; no code of zinx. -/
def daysBefore (y m : Nat) : Nat := ((List.range m).map (daysIn y)).sum

/-- Days from 1970-01-01 to the date. The package `time` as used in zutils/witer.go:169-200; no code of zinx. -/
def dayNumber (y m d : Nat) : Int :=
  365 * (y : Int) + ((y : Int) + 3) / 4 - ((y : Int) + 99) / 100 + ((y : Int) + 399) / 400 + daysBefore y m + d - 1 - 719528

/-- One day in microseconds. The package `time` as used in zutils/witer.go:169-200; no code of zinx. -/
def dayLen : Int := 86400000000

/-- The instant at which a clock showing UTC shows `w`. The package `time` as used in zutils/witer.go:169-200; no code of zinx. -/
def Wall.utc (w : Wall) : Int :=
  dayNumber w.year w.month w.day * dayLen + ((w.hour * 60 + w.minute) * 60 + w.second : Nat) * 1000000 + w.micro

/-- `n` decimal digits of `v`. Part of `time.Format`, called in zutils/witer.go:198-200. -/
def pad : Nat → Nat → List Char
  | 0, _ => []
  | n + 1, v => pad n (v / 10) ++ [Nat.digitChar (v % 10)]

/-- zutils/witer.go:198-200 `time2name`. -/
def time2name (w : Wall) : List Char :=
  '.' :: (pad 4 w.year ++ '-' :: (pad 2 w.month ++ '-' :: (pad 2 w.day ++ '-' :: (pad 2 w.hour ++ (pad 2 w.minute ++ (pad 2 w.second ++
    '.' :: pad 6 w.micro))))))

/-- A character that must be there (`skip` in `time.Parse`). Part of `time.Parse`, called in zutils/witer.go:192-197. -/
def lit (p : Char → Bool) : List Char → Option (List Char)
  | [] => none
  | c :: l => if p c then some l else none

/-- The value of a string of digits. Part of `time.Parse`, called in zutils/witer.go:192-197. -/
def value (l : List Char) : Nat := l.foldl (fun v c => v * 10 + (c.toNat - 48)) 0

/-- Exactly `n` digits (`getnum` and the year case of `time.Parse`). The hour may have one digit only if no digit follows; the minute must follow at
once in this layout, so this never applies. Part of `time.Parse`, called in zutils/witer.go:192-197. -/
def num (n : Nat) (l : List Char) : Option (Nat × List Char) :=
  if n ≤ l.length ∧ (l.take n).all Char.isDigit then some (value (l.take n), l.drop n) else none

/-- The six characters of the fraction: digits, or a sign and five digits as long as the value is not negative (`parseNanoseconds` uses `atoi`). Part of `time.Parse`, called in zutils/witer.go:192-197. -/
def frac (l : List Char) : Option (Nat × List Char) :=
  match l with
  | [] => none
  | c :: l' =>
    if c = '+' then num 5 l'
    else if c = '-' then (num 5 l').bind (fun r => if r.1 = 0 then some r else none)
    else num 6 l

/-- `time.Parse(".2006-01-02-150405.000000", _)`: a comma is accepted for the second full stop; the fields must be those of an existing date and
time; nothing may follow. As called in zutils/witer.go:192-197. -/
def parse (l : List Char) : Option Wall := do
  let l ← lit (· = '.') l
  let (y, l) ← num 4 l
  let l ← lit (· = '-') l
  let (m, l) ← num 2 l
  let l ← lit (· = '-') l
  let (d, l) ← num 2 l
  let l ← lit (· = '-') l
  let (h, l) ← num 2 l
  let (n, l) ← num 2 l
  let (s, l) ← num 2 l
  let l ← lit (fun c => c = '.' || c = ',') l
  let (u, l) ← frac l
  if l = [] ∧ Wall.Valid ⟨y, m, d, h, n, s, u⟩ then some ⟨y, m, d, h, n, s, u⟩ else none

/-- `strings.TrimPrefix`. As called in zutils/witer.go:192-197. -/
def trimPrefix (l p : List Char) : List Char := if p.isPrefixOf l then l.drop p.length else l

/-- `strings.TrimSuffix`. As called in zutils/witer.go:192-197. -/
def trimSuffix (l p : List Char) : List Char := if p.isSuffixOf l then l.take (l.length - p.length) else l

/-- The default of `zipsuffix` (zutils/witer.go:53-55), which nothing changes. -/
def zipSuffix : List Char := ".zip".toList

/-- zutils/witer.go:192-197 `name2time`; `fname` has no directory part, so `filepath.Base` leaves it (except for an empty `fname`, where it gives
"."; see `base`). -/
def name2time (base name : List Char) : Option Wall := parse (trimSuffix (trimPrefix name base) zipSuffix)

/-- `filepath.Base` of a name without separators. As called in zutils/witer.go:169-200. -/
def base (fname : List Char) : List Char := if fname = [] then ['.'] else fname

/-- A directory entry. What `os.ReadDir` gives, zutils/witer.go:169-190. -/
structure Entry where
  name : List Char
  isDir : Bool
  deriving DecidableEq, Repr

/-- Whether `delete` removes an entry at instant `now` (zutils/witer.go:179-189): the wall-clock time in the name is taken as UTC. -/
def removes (fname : List Char) (maxAge : Int) (now : Int) (e : Entry) : Bool :=
  !e.isDir && match name2time (base fname) e.name with
  | none => false
  | some w => w.utc < now - maxAge * dayLen

/-- zutils/witer.go:169-190 `delete`: what is left in the directory. -/
def delete (fname : List Char) (maxAge : Int) (now : Int) (dir : List Entry) : List Entry :=
  if maxAge ≤ 0 then dir else dir.filter (fun e => !removes fname maxAge now e)

/-- The archive `rotate` makes of a log file whose creation time shows `w` on the local clock (zutils/witer.go:139-142). -/
def archiveName (fname : List Char) (w : Wall) : List Char := fname ++ time2name w ++ zipSuffix

/-- Splitting the file name into `fname` and `fsuffix` (zutils/witer.go:48-49, `filepath.Ext`): the suffix begins at the last full stop. -/
def ext (file : List Char) : List Char :=
  if '.' ∈ file then '.' :: (file.reverse.takeWhile (· ≠ '.')).reverse else []

end Zinx.LogClean
