import Verif.Model.Instance
import Verif.Model.Label
/-!
# pkg/renderables/formatPeriod.go, the date parts of english.go, spanish.go and contexts.go

Of the `time` package: `Parse` with layout `2006-01-02`, `Format` with layout `January 2, 2006`, and, for times at
midnight UTC, `Sub`, `Before`, `Add(24h)` and `Month`. Such a time is the number of days since 0000-01-01.
`lctime.StrftimeLoc` is a parameter.
-/
namespace Telefacts.Render
open Telefacts.Instance

/-- A calendar date. -/
structure Date where
  y : Nat
  m : Nat
  d : Nat
deriving DecidableEq, Repr

/-- `time.isLeap` -/
def isLeap (y : Nat) : Bool := y % 4 = 0 && (y % 100 ≠ 0 || y % 400 = 0)

/-- `time.daysIn` -/
def daysIn (m y : Nat) : Nat :=
  if m = 2 then (if isLeap y then 29 else 28)
  else if m = 4 ∨ m = 6 ∨ m = 9 ∨ m = 11 then 30
  else 31

/-- The next day of the (proleptic Gregorian) calendar. -/
def nextDay (a : Date) : Date :=
  if a.d < daysIn a.m a.y then { a with d := a.d + 1 }
  else if a.m < 12 then ⟨a.y, a.m + 1, 1⟩
  else ⟨a.y + 1, 1, 1⟩

/-- `Time.Date`: the date of a day number. -/
def civil : Nat → Date
  | 0 => ⟨0, 1, 1⟩
  | n + 1 => nextDay (civil n)

/-- Days in the years before `y`. -/
def daysBeforeYear : Nat → Nat
  | 0 => 0
  | y + 1 => daysBeforeYear y + (if isLeap y then 366 else 365)

/-- Days in the months before `m`. -/
def daysBeforeMonth (y : Nat) : Nat → Nat
  | 0 => 0
  | 1 => 0
  | m + 2 => daysBeforeMonth y (m + 1) + daysIn (m + 1) y

/-- The `time.Time` of a date: `time.Date(y, m, d, 0, 0, 0, 0, UTC)`. -/
def dayNumber (a : Date) : Nat := daysBeforeYear a.y + daysBeforeMonth a.y a.m + (a.d - 1)

/-- `isDigit`, `s[i] - '0'` -/
def digitOf (c : Char) : Option Nat := if 48 ≤ c.toNat ∧ c.toNat ≤ 57 then some (c.toNat - 48) else none

/-- `time.Parse("2006-01-02", s)`; `none` is an error. -/
def parseISO (s : String) : Option Date :=
  match s.toList with
  | [y1, y2, y3, y4, s1, m1, m2, s2, d1, d2] => do
    let y1 ← digitOf y1
    let y2 ← digitOf y2
    let y3 ← digitOf y3
    let y4 ← digitOf y4
    guard (s1 = '-')
    let m1 ← digitOf m1
    let m2 ← digitOf m2
    let y := 1000 * y1 + 100 * y2 + 10 * y3 + y4
    let m := 10 * m1 + m2
    guard (1 ≤ m ∧ m ≤ 12)
    guard (s2 = '-')
    let d1 ← digitOf d1
    let d2 ← digitOf d2
    let d := 10 * d1 + d2
    guard (1 ≤ d ∧ d ≤ daysIn m y)
    return ⟨y, m, d⟩
  | _ => none

/-- The loop at formatPeriod.go:81-88. -/
def monthLoop (start stop month months : Nat) : Nat :=
  if start < stop then
    let nextMonth := (civil (start + 1)).m
    monthLoop (start + 1) stop nextMonth (if nextMonth ≠ month then months + 1 else months)
  else months
termination_by stop - start

/-- formatPeriod.go:71-90 `monthCount`. (`Sub` saturates at 292 years, `Hours` is a float; for differences of whole
days the comparison with 30 days is exact.) -/
def monthCount (start stop : Nat) : Nat :=
  if (stop : Int) - start < 30 then 0
  else monthLoop start stop (civil start).m 1

/-- formatPeriod.go:42-48 `defaultDate` -/
def defaultDate (start stop : String) : String := if start ≠ "" then start ++ "/" ++ stop else stop

/-- Month names of `Format`. -/
def monthName : Nat → String
  | 1 => "January"
  | 2 => "February"
  | 3 => "March"
  | 4 => "April"
  | 5 => "May"
  | 6 => "June"
  | 7 => "July"
  | 8 => "August"
  | 9 => "September"
  | 10 => "October"
  | 11 => "November"
  | _ => "December"

/-- A decimal digit. -/
def digitChar (n : Nat) : Char := Char.ofNat (48 + n)

/-- A year below 10000 with four digits. -/
def year4 (y : Nat) : String :=
  String.ofList [digitChar (y / 1000), digitChar (y / 100 % 10), digitChar (y / 10 % 10), digitChar (y % 10)]

/-- A day of the month without leading zero. -/
def day12 (d : Nat) : String :=
  if d < 10 then String.ofList [digitChar d] else String.ofList [digitChar (d / 10), digitChar (d % 10)]

/-- `endTime.Format("January 2, 2006")`: english.go:17-18. -/
def englishDate (a : Date) : String := monthName a.m ++ " " ++ day12 a.d ++ ", " ++ year4 a.y

/-- english.go:11-35 `formatEnglishDates` -/
def formatEnglishDates (start stop : String) : String :=
  match parseISO stop with
  | none => defaultDate start stop
  | some e =>
    if start ≠ "" then
      match parseISO start with
      | none => defaultDate start stop
      | some s =>
        let months := monthCount (dayNumber s) (dayNumber e)
        if months < 1 then defaultDate start stop
        else if months = 1 then "1 month ended " ++ englishDate e
        else toString months ++ " months ended " ++ englishDate e
    else "as of " ++ englishDate e

/-- spanish.go:12-38 `formatSpanishDates`; `spanish` is `lctime.StrftimeLoc("es_ES", "%d %B %Y", ·)`. -/
def formatSpanishDates (spanish : Date → Option String) (start stop : String) : String :=
  match parseISO stop with
  | none => defaultDate start stop
  | some e =>
    match spanish e with
    | none => defaultDate start stop
    | some date =>
      if start ≠ "" then
        match parseISO start with
        | none => defaultDate start stop
        | some s =>
          let months := monthCount (dayNumber s) (dayNumber e)
          if months < 1 then defaultDate start stop
          else if months = 1 then "un mes terminado al " ++ date
          else toString months ++ " meses terminados al " ++ date
      else "al " ++ date

/-- formatPeriod.go:50-69 `formatDate` -/
def formatDate (spanish : Date → Option String) (lang : Lang) (date : String) : String :=
  let (start, stop) := match cut '/' date with
    | none => ("", date)
    | some (a, b) => (a, b)
  if lang = PureLabel then date
  else if lang = English then formatEnglishDates start stop
  else if lang = Espanol then formatSpanishDates spanish start stop
  else date

/-- formatPeriod.go:22-36: one header. The header map is changed in place; the list is returned unchanged. -/
def formatHeader (spanish : Date → Option String) (langs : List Lang) (ctx : LanguagePack) : LanguagePack :=
  match mapGet ctx PureLabel with
  | none => ctx
  | some pure =>
    langs.foldl (fun ctx lang => if lang = PureLabel then ctx else mapSet ctx lang (formatDate spanish lang pure)) ctx

/-- formatPeriod.go:20-38 `formatRelevantPeriod`; formatPeriod.go:8-18 calls it for every grid. -/
def formatRelevantPeriod (spanish : Date → Option String) (headers : List LanguagePack) (langs : List Lang) :
    List LanguagePack := headers.map (formatHeader spanish langs)

/-- contexts.go:93-103 `periodString` -/
def periodString (c : Context) : LanguagePack :=
  if c.endDate ≠ "" ∧ c.startDate ≠ "" then [(PureLabel, c.startDate ++ "/" ++ c.endDate)]
  else if c.instant ≠ "" then [(PureLabel, c.instant)]
  else [(PureLabel, "")]

end Telefacts.Render
