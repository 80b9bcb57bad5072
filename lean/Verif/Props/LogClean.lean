import Verif.Model.LogClean

/-! # C82: removal of old log archives -/

namespace Zinx.Props

open Zinx.LogClean

/-- The full claim C82 for a writer whose log file stem is `fname`, in a time zone `off` ahead of UTC: with a positive retention time of `maxAge` days,
exactly those files are removed that are archives of this log whose log file was created more than `maxAge` days ago. -/
def RemovesByAge (fname : List Char) (off : Int) : Prop :=
  ∀ (maxAge now : Int) (dir : List Entry) (e : Entry), 0 < maxAge → e ∈ dir →
    (e ∉ delete fname maxAge now dir ↔
      e.isDir = false ∧ ∃ w : Wall, w.Valid ∧ e.name = archiveName fname w ∧ maxAge * dayLen < now - (w.utc - off))

theorem digit_isDigit : ∀ d < 10, (Nat.digitChar d).isDigit = true ∧ (Nat.digitChar d).toNat - 48 = d := by decide

theorem digit_ne : ∀ d < 10, Nat.digitChar d ≠ '+' ∧ Nat.digitChar d ≠ '-' ∧ Nat.digitChar d ≠ '.' := by decide

theorem pad_length (n v : Nat) : (pad n v).length = n := by
  induction n generalizing v with
  | zero => rfl
  | succ n ih => simp [pad, ih]

theorem pad_digits (n v : Nat) : ∀ c ∈ pad n v, ∃ d < 10, c = Nat.digitChar d := by
  induction n generalizing v with
  | zero => intro c hc; simp [pad] at hc
  | succ n ih =>
    intro c hc
    simp only [pad, List.mem_append, List.mem_singleton] at hc
    rcases hc with hc | rfl
    · exact ih _ c hc
    · exact ⟨_, Nat.mod_lt _ (by decide), rfl⟩

theorem value_pad (n v : Nat) (h : v < 10 ^ n) : value (pad n v) = v := by
  induction n generalizing v with
  | zero => simp [pad, value]; omega
  | succ n ih =>
    have h10 : v / 10 < 10 ^ n := by rw [Nat.pow_succ] at h; omega
    have := ih _ h10
    unfold value at this ⊢
    rw [pad, List.foldl_append, this]
    simp only [List.foldl_cons, List.foldl_nil, (digit_isDigit _ (Nat.mod_lt v (by decide : 0 < 10))).2]
    omega

theorem num_pad (n v : Nat) (h : v < 10 ^ n) (rest : List Char) : num n (pad n v ++ rest) = some (v, rest) := by
  have ht : (pad n v ++ rest).take n = pad n v := by
    rw [List.take_append_of_le_length (by simp [pad_length]), List.take_of_length_le (by simp [pad_length])]
  have hd : (pad n v ++ rest).drop n = rest := by
    have := List.drop_left (l₁ := pad n v) (l₂ := rest)
    rwa [pad_length] at this
  have ha : (pad n v).all Char.isDigit = true := by
    rw [List.all_eq_true]
    intro c hc
    obtain ⟨d, hd, rfl⟩ := pad_digits n v c hc
    exact (digit_isDigit d hd).1
  unfold num
  rw [ht, hd, value_pad n v h, if_pos ⟨by simp [pad_length], ha⟩]

theorem frac_pad (v : Nat) (h : v < 1000000) : frac (pad 6 v) = some (v, []) := by
  have hn := num_pad 6 v h []
  rw [List.append_nil] at hn
  have hl := pad_length 6 v
  have hd := pad_digits 6 v
  revert hn hl hd
  generalize pad 6 v = l
  intro hn hl hd
  cases l with
  | nil => simp at hl
  | cons c l =>
    obtain ⟨d, hd10, rfl⟩ := hd c List.mem_cons_self
    unfold frac
    simp only [(digit_ne d hd10).1, (digit_ne d hd10).2.1, if_false]
    exact hn

/-- Printing and parsing a time gives it back. -/
theorem parse_time2name (w : Wall) (h : w.Valid) : parse (time2name w) = some w := by
  obtain ⟨h1, h2, h3, h4, h5, h6, h7, h8, h9⟩ := id h
  have hd : w.day < 10 ^ 2 := by
    have : daysIn w.year w.month ≤ 31 := by unfold daysIn; split <;> (try split) <;> omega
    omega
  unfold parse time2name
  simp only [lit, num_pad 4 w.year (by omega), num_pad 2 w.month (by omega), num_pad 2 w.day hd, num_pad 2 w.hour (by omega),
    num_pad 2 w.minute (by omega), num_pad 2 w.second (by omega), frac_pad w.micro h9, Option.bind_eq_bind, Option.bind_some, if_true,
    decide_true, Bool.true_or]
  rw [if_pos ⟨trivial, h⟩]

theorem num_len {n : Nat} {l r : List Char} {v : Nat} (h : num n l = some (v, r)) : l.length = n + r.length := by
  unfold num at h
  split at h
  · rename_i hc
    simp only [Option.some.injEq, Prod.mk.injEq] at h
    rw [← h.2]; simp; omega
  · simp at h

theorem lit_len {p : Char → Bool} {l r : List Char} (h : lit p l = some r) : ∃ c, p c = true ∧ l = c :: r := by
  cases l with
  | nil => simp [lit] at h
  | cons c l =>
    simp only [lit] at h
    split at h
    · rename_i hp; simp only [Option.some.injEq] at h; exact ⟨c, hp, by rw [h]⟩
    · simp at h

theorem frac_len {l r : List Char} {v : Nat} (h : frac l = some (v, r)) : l.length = 6 + r.length := by
  cases l with
  | nil => simp [frac] at h
  | cons c l =>
    simp only [frac] at h
    split at h
    · have := num_len h; simp; omega
    · split at h
      · cases hn : num 5 l with
        | none => simp [hn] at h
        | some q =>
          rw [hn] at h
          simp only [Option.bind_some] at h
          split at h
          · simp only [Option.some.injEq] at h; subst h; have := num_len hn; simp; omega
          · simp at h
      · have := num_len h; simpa using this

/-- Only strings of 25 characters beginning with a full stop parse, and only to existing times. -/
theorem parse_some {l : List Char} {w : Wall} (h : parse l = some w) : l.length = 25 ∧ l.head? = some '.' ∧ w.Valid := by
  unfold parse at h
  simp only [Option.bind_eq_bind, Option.bind_eq_some_iff] at h
  obtain ⟨l1, e1, ⟨y, l2⟩, e2, l3, e3, ⟨m, l4⟩, e4, l5, e5, ⟨d, l6⟩, e6, l7, e7, ⟨hh, l8⟩, e8, ⟨n, l9⟩, e9, ⟨s, l10⟩, e10, l11, e11, ⟨u, l12⟩, e12, hf⟩ := h
  split at hf
  · rename_i hc
    obtain ⟨c1, p1, rfl⟩ := lit_len e1
    obtain ⟨_, _, rfl⟩ := lit_len e3
    obtain ⟨_, _, rfl⟩ := lit_len e5
    obtain ⟨_, _, rfl⟩ := lit_len e7
    obtain ⟨_, _, rfl⟩ := lit_len e11
    have a1 := num_len e2
    have a2 := num_len e4
    have a3 := num_len e6
    have a4 := num_len e8
    have a5 := num_len e9
    have a6 := num_len e10
    have a7 := frac_len e12
    simp only [decide_eq_true_eq] at p1
    have a8 : l12.length = 0 := congrArg List.length hc.1
    simp only [List.length_cons] at *
    simp only [Option.some.injEq] at hf
    refine ⟨by omega, by simp [p1], hf ▸ hc.2⟩
  · simp at hf

theorem trimPrefix_append (p l : List Char) : trimPrefix (p ++ l) p = l := by simp [trimPrefix]

theorem trimSuffix_append (l p : List Char) : trimSuffix (l ++ p) p = l := by simp [trimSuffix]

theorem name2time_archive {fname : List Char} (hf : fname ≠ []) (w : Wall) (hw : w.Valid) :
    name2time (base fname) (archiveName fname w) = some w := by
  unfold name2time base archiveName
  rw [if_neg hf, List.append_assoc, trimPrefix_append, trimSuffix_append, parse_time2name w hw]

theorem mem_delete {fname : List Char} {maxAge now : Int} {dir : List Entry} {e : Entry} (hm : 0 < maxAge) (he : e ∈ dir) :
    e ∉ delete fname maxAge now dir ↔ removes fname maxAge now e = true := by
  unfold delete
  rw [if_neg (by omega)]
  simp [he]

/-- **C82 (partial).** For a log file with a non-empty stem: an archive of it is removed iff the time its name shows, read as UTC, is more than `maxAge`
days ago; hence exactly by age where the local clock shows UTC, and elsewhere up to `off` early or late. Missing: other time zones, and that no
file other than archives is removed (both false, see below). -/
theorem C82_partial {fname : List Char} (hf : fname ≠ []) (maxAge now : Int) (dir : List Entry) (w : Wall) (hm : 0 < maxAge) (hw : w.Valid)
    (he : ⟨archiveName fname w, false⟩ ∈ dir) (off : Int) :
    ((⟨archiveName fname w, false⟩ : Entry) ∉ delete fname maxAge now dir ↔ maxAge * dayLen < now - w.utc) ∧
    (maxAge * dayLen + off.natAbs < now - (w.utc - off) → (⟨archiveName fname w, false⟩ : Entry) ∉ delete fname maxAge now dir) ∧
    ((⟨archiveName fname w, false⟩ : Entry) ∉ delete fname maxAge now dir → maxAge * dayLen < now - (w.utc - off) + off.natAbs) := by
  have key : (⟨archiveName fname w, false⟩ : Entry) ∉ delete fname maxAge now dir ↔ maxAge * dayLen < now - w.utc := by
    rw [mem_delete hm he]
    simp only [removes, name2time_archive hf w hw, Bool.not_false, Bool.true_and, decide_eq_true_eq]
    omega
  refine ⟨key, fun h => key.2 (by omega), fun h => ?_⟩
  have := key.1 h
  omega

/-- **C82 (what is removed).** Every removed file is a plain file whose name consists of the stem or nothing, 25 characters that are a date and time
more than `maxAge` days ago, and ".zip" or nothing. -/
theorem C82_form {fname : List Char} (hf : fname ≠ []) (maxAge now : Int) (dir : List Entry) (e : Entry) (hm : 0 < maxAge) (he : e ∈ dir)
    (h : e ∉ delete fname maxAge now dir) :
    e.isDir = false ∧ ∃ pre t suf, e.name = pre ++ t ++ suf ∧ (pre = fname ∨ pre = []) ∧ (suf = zipSuffix ∨ suf = []) ∧ t.length = 25 ∧
      t.head? = some '.' ∧ ∃ w, parse t = some w ∧ w.Valid ∧ maxAge * dayLen < now - w.utc := by
  rw [mem_delete hm he] at h
  simp only [removes, Bool.and_eq_true, Bool.not_eq_true'] at h
  refine ⟨h.1, ?_⟩
  have h2 := h.2
  cases hn : name2time (base fname) e.name with
  | none => simp [hn] at h2
  | some w =>
    simp only [hn, decide_eq_true_eq] at h2
    unfold name2time base at hn
    rw [if_neg hf] at hn
    obtain ⟨hl, hh, hv⟩ := parse_some hn
    have hp : ∃ pre, e.name = pre ++ trimPrefix e.name fname ∧ (pre = fname ∨ pre = []) := by
      unfold trimPrefix
      split
      · rename_i hp
        obtain ⟨q, hq⟩ := List.isPrefixOf_iff_prefix.1 hp
        exact ⟨fname, by rw [← hq]; simp, .inl rfl⟩
      · exact ⟨[], rfl, .inr rfl⟩
    have hs : ∀ l, ∃ suf, l = trimSuffix l zipSuffix ++ suf ∧ (suf = zipSuffix ∨ suf = []) := by
      intro l
      unfold trimSuffix
      split
      · rename_i hp
        obtain ⟨q, hq⟩ := List.isSuffixOf_iff_suffix.1 hp
        exact ⟨zipSuffix, by rw [← hq]; simp, .inl rfl⟩
      · exact ⟨[], by simp, .inr rfl⟩
    obtain ⟨pre, e1, hpre⟩ := hp
    obtain ⟨suf, e2, hsuf⟩ := hs (trimPrefix e.name fname)
    exact ⟨pre, _, suf, by rw [List.append_assoc, ← e2, ← e1], hpre, hsuf, hl, hh, w, hn, hv, by omega⟩

/-- **C82 (nothing to remove).** A retention time of zero or less removes nothing; directories and the log file itself (with a suffix of fewer than 25
characters) are never removed. -/
theorem C82_kept (fname : List Char) (maxAge now : Int) (dir : List Entry) :
    (maxAge ≤ 0 → delete fname maxAge now dir = dir) ∧ (∀ e ∈ dir, e.isDir = true → e ∈ delete fname maxAge now dir) ∧
    (fname ≠ [] → ∀ suffix : List Char, suffix.length < 25 → ⟨fname ++ suffix, false⟩ ∈ dir →
      (⟨fname ++ suffix, false⟩ : Entry) ∈ delete fname maxAge now dir) := by
  refine ⟨fun h => if_pos h, fun e he hd => ?_, fun hf suffix hs he => ?_⟩
  · by_cases hm : 0 < maxAge
    · refine Classical.byContradiction fun hn => ?_
      rw [mem_delete hm he] at hn
      simp [removes, hd] at hn
    · unfold delete; rw [if_pos (by omega)]; exact he
  · by_cases hm : 0 < maxAge
    · refine Classical.byContradiction fun hn => ?_
      rw [mem_delete hm he] at hn
      simp only [removes, name2time, base, if_neg hf, trimPrefix_append, Bool.not_false, Bool.true_and] at hn
      have : (trimSuffix suffix zipSuffix).length < 25 := by
        unfold trimSuffix; split <;> (try simp) <;> omega
      cases hp : parse (trimSuffix suffix zipSuffix) with
      | none => simp [hp] at hn
      | some w => have := (parse_some hp).1; omega
    · unfold delete; rw [if_pos (by omega)]; exact he

/-- The day numbers follow the calendar: each day is one after the day before, and 1970-01-01 is day 0. -/
theorem C82_calendar (y m d : Nat) :
    dayNumber 1970 1 1 = 0 ∧ dayNumber y m (d + 1) = dayNumber y m d + 1 ∧ dayNumber y (m + 1) 1 = dayNumber y m (daysIn y m) + 1 ∧
    dayNumber (y + 1) 1 1 = dayNumber y 12 31 + 1 := by
  refine ⟨by decide, ?_, ?_, ?_⟩
  · simp only [dayNumber]; omega
  · simp only [dayNumber, daysBefore, List.range_succ, List.map_append, List.sum_append, List.map_cons, List.map_nil, List.sum_cons, List.sum_nil]
    omega
  · have e1 : ∀ y, daysBefore y 1 = 0 := fun y => rfl
    have e2 : daysBefore y 12 = if leap y then 335 else 334 := by
      have : daysBefore y 12 = 306 + daysIn y 2 := by
        simp [daysBefore, List.range_succ, daysIn]
        omega
      rw [this]; simp only [daysIn]; split <;> rfl
    simp only [dayNumber, e1, e2]
    by_cases hl : leap y = true
    · simp only [hl, if_true]
      simp only [leap, Bool.and_eq_true, Bool.or_eq_true, decide_eq_true_eq] at hl
      omega
    · simp only [hl]
      simp only [leap, Bool.and_eq_true, Bool.or_eq_true, decide_eq_true_eq] at hl
      simp
      omega

theorem daysBefore_succ (y m : Nat) : daysBefore y (m + 1) = daysBefore y m + daysIn y m := by
  simp [daysBefore, List.range_succ]

theorem daysBefore_mono (y : Nat) {m n : Nat} (h : m ≤ n) : daysBefore y m ≤ daysBefore y n := by
  induction h with
  | refl => exact Nat.le_refl _
  | step _ ih => rw [daysBefore_succ]; omega

/-- Dates in the order of the calendar have increasing day numbers. -/
theorem dayNumber_lt {y m d y' m' d' : Nat} (hm : 1 ≤ m ∧ m ≤ 12) (hd : 1 ≤ d ∧ d ≤ daysIn y m) (hm' : 1 ≤ m' ∧ m' ≤ 12) (hd' : 1 ≤ d' ∧ d' ≤ daysIn y' m')
    (h : y < y' ∨ y = y' ∧ (m < m' ∨ m = m' ∧ d < d')) : dayNumber y m d < dayNumber y' m' d' := by
  have hb : ∀ y m d, dayNumber y m d = dayNumber y 1 1 + daysBefore y m + d - 1 := by
    intro y m d
    have e1 : ∀ y, daysBefore y 1 = 0 := fun y => rfl
    simp only [dayNumber, e1]; omega
  rcases h with h | ⟨rfl, h | ⟨rfl, h⟩⟩
  · have hy : dayNumber (y + 1) 1 1 ≤ dayNumber y' 1 1 := by
      clear hd' hm' hd
      induction h with
      | refl => exact Int.le_refl _
      | step _ ih =>
        refine Int.le_trans ih ?_
        rw [(C82_calendar _ 1 1).2.2.2, hb _ 12 31]
        omega
    have h1 := daysBefore_mono y (show m + 1 ≤ 13 by omega)
    rw [daysBefore_succ, show (13 : Nat) = 12 + 1 from rfl, daysBefore_succ, show daysIn y 12 = 31 from rfl] at h1
    rw [(C82_calendar y 1 1).2.2.2] at hy
    rw [hb y 12 31] at hy
    rw [hb y m d, hb y' m' d']
    omega
  · have h1 := daysBefore_mono y (show m + 1 ≤ m' from h)
    rw [daysBefore_succ] at h1
    rw [hb y m d, hb y m' d']
    omega
  · rw [hb y m d, hb y m d']; omega

/-- The clock: instants follow the wall clock. A microsecond, a second, a minute and an hour later the clock shows the next one, midnight is the end of a day, and no two readings of the clock that exist
are the same instant. -/
theorem C82_clock (w : Wall) (hw : w.Valid) :
    (∀ k, ({ w with micro := w.micro + k } : Wall).utc = w.utc + k) ∧ (∀ k, ({ w with second := w.second + k } : Wall).utc = w.utc + 1000000 * k) ∧
    (∀ k, ({ w with minute := w.minute + k } : Wall).utc = w.utc + 60000000 * k) ∧ (∀ k, ({ w with hour := w.hour + k } : Wall).utc = w.utc + 3600000000 * k) ∧
    (∀ k, ({ w with day := w.day + k } : Wall).utc = w.utc + 86400000000 * k) ∧ Wall.utc ⟨1970, 1, 1, 0, 0, 0, 0⟩ = 0 ∧ ∀ w' : Wall, w'.Valid → w'.utc = w.utc → w' = w := by
  obtain ⟨y, mo, d, hh, mi, se, us⟩ := w
  refine ⟨fun k => ?_, fun k => ?_, fun k => ?_, fun k => ?_, fun k => ?_, by decide, fun w' hw' e => ?_⟩
  · simp only [Wall.utc]; omega
  · simp only [Wall.utc]; omega
  · simp only [Wall.utc]; omega
  · simp only [Wall.utc]; omega
  · simp only [Wall.utc, dayLen, dayNumber]; omega
  · obtain ⟨y', mo', d', hh', mi', se', us'⟩ := w'
    simp only [Wall.Valid] at hw hw'
    simp only [Wall.utc, dayLen] at e
    have e1 : dayNumber y' mo' d' = dayNumber y mo d := by omega
    have e2 : hh' = hh ∧ mi' = mi ∧ se' = se ∧ us' = us := by omega
    obtain ⟨rfl, rfl, rfl, rfl⟩ := e2
    have e3 : y' = y ∧ mo' = mo ∧ d' = d := by
      have n1 : ¬ (y < y' ∨ y = y' ∧ (mo < mo' ∨ mo = mo' ∧ d < d')) := fun h => Int.ne_of_lt (dayNumber_lt (y := y) (m := mo) (d := d) (y' := y') (m' := mo') (d' := d') ⟨hw.2.1, hw.2.2.1⟩ ⟨hw.2.2.2.1, hw.2.2.2.2.1⟩ ⟨hw'.2.1, hw'.2.2.1⟩ ⟨hw'.2.2.2.1, hw'.2.2.2.2.1⟩ h) e1.symm
      have n2 : ¬ (y' < y ∨ y' = y ∧ (mo' < mo ∨ mo' = mo ∧ d' < d)) := fun h => Int.ne_of_lt (dayNumber_lt (y := y') (m := mo') (d := d') (y' := y) (m' := mo) (d' := d) ⟨hw'.2.1, hw'.2.2.1⟩ ⟨hw'.2.2.2.1, hw'.2.2.2.2.1⟩ ⟨hw.2.1, hw.2.2.1⟩ ⟨hw.2.2.2.1, hw.2.2.2.2.1⟩ h) e1
      omega
    obtain ⟨rfl, rfl, rfl⟩ := e3
    rfl

/-- A log of the summer of 2023. -/
def oldLog : Wall := ⟨2023, 7, 15, 12, 0, 0, 0⟩

/-- **C82 refuted.** West of Greenwich an archive is removed before its time; east of it one is kept too long; a file that is not an archive of this
log is removed; and the archives of a log whose file name begins with its only full stop are never removed. -/
theorem C82_refuted :
    ¬ RemovesByAge "app".toList (-5 * 3600000000) ∧ ¬ RemovesByAge "app".toList (8 * 3600000000) ∧ ¬ RemovesByAge "app".toList 0 ∧
    ∀ off, ¬ RemovesByAge [] off := by
  refine ⟨fun h => ?_, fun h => ?_, fun h => ?_, fun off h => ?_⟩
  · have := (h 1 (oldLog.utc + dayLen + 3600000000) [⟨archiveName "app".toList oldLog, false⟩] ⟨archiveName "app".toList oldLog, false⟩ (by decide)
      List.mem_cons_self).1 (by decide +kernel)
    obtain ⟨_, w, hw, hn, ha⟩ := this
    have e1 := name2time_archive (fname := "app".toList) (by decide) w hw
    have e2 := name2time_archive (fname := "app".toList) (by decide) oldLog (by decide)
    rw [← hn] at e1
    rw [e1] at e2
    simp only [Option.some.injEq] at e2
    subst e2
    simp only [dayLen] at ha
    omega
  · have := (h 1 (oldLog.utc + dayLen - 3600000000) [⟨archiveName "app".toList oldLog, false⟩] ⟨archiveName "app".toList oldLog, false⟩ (by decide)
      List.mem_cons_self).2 ⟨rfl, oldLog, by decide, rfl, by simp only [dayLen]; omega⟩
    revert this
    decide +kernel
  · have := (h 1 (oldLog.utc + 2 * dayLen) [⟨time2name oldLog, false⟩] ⟨time2name oldLog, false⟩ (by decide) List.mem_cons_self).1 (by decide +kernel)
    obtain ⟨_, w, _, hn, _⟩ := this
    have hl := congrArg List.head? hn
    revert hl
    simp [archiveName]
    decide
  · have := (h 1 (oldLog.utc + dayLen + 1 - off) [⟨archiveName [] oldLog, false⟩] ⟨archiveName [] oldLog, false⟩ (by decide) List.mem_cons_self).2
      ⟨rfl, oldLog, by decide, rfl, by omega⟩
    rw [mem_delete (by decide) List.mem_cons_self] at this
    have hn : name2time (base []) (archiveName [] oldLog) = none := by decide +kernel
    simp [removes, hn] at this

/-- With 31 days, the archive of July 2023 is gone in September; the log file stays. -/
example : delete "app".toList 31 (Wall.utc ⟨2023, 9, 1, 0, 0, 0, 0⟩) [⟨archiveName "app".toList oldLog, false⟩, ⟨"app.log".toList, false⟩] =
    [⟨"app.log".toList, false⟩] ∧ oldLog.Valid ∧ archiveName "app".toList oldLog = "app.2023-07-15-120000.000000.zip".toList := by decide +kernel

end Zinx.Props
