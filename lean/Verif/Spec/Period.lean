import Verif.Model.Period
/-! # Specification of dates and periods -/
namespace Telefacts.Render

/-- Thirty days hath September, April, June and November; all the rest have thirty-one, except February. -/
def MonthLength (y m n : Nat) : Prop :=
  ((m = 4 ∨ m = 6 ∨ m = 9 ∨ m = 11) ∧ n = 30) ∨
  ((m = 1 ∨ m = 3 ∨ m = 5 ∨ m = 7 ∨ m = 8 ∨ m = 10 ∨ m = 12) ∧ n = 31) ∨
  (m = 2 ∧ ((4 ∣ y ∧ (100 ∣ y → 400 ∣ y)) ∧ n = 29 ∨ ¬ (4 ∣ y ∧ (100 ∣ y → 400 ∣ y)) ∧ n = 28))

/-- A date of the calendar. -/
def ValidDate (a : Date) : Prop := ∃ n, MonthLength a.y a.m n ∧ 1 ≤ a.d ∧ a.d ≤ n

/-- `b` is the day after `a`. -/
def DayAfter (a b : Date) : Prop :=
  ∃ n, MonthLength a.y a.m n ∧
    ((a.d < n ∧ b = ⟨a.y, a.m, a.d + 1⟩) ∨ (a.d = n ∧ a.m < 12 ∧ b = ⟨a.y, a.m + 1, 1⟩) ∨
      (a.d = n ∧ a.m = 12 ∧ b = ⟨a.y + 1, 1, 1⟩))

/-- `b` is `n` days after `a`. -/
inductive DaysAfter : Date → Nat → Date → Prop
  | zero (a) : DaysAfter a 0 a
  | succ (a b c n) : DaysAfter a n b → DayAfter b c → DaysAfter a (n + 1) c

/-- The text is the ISO form `yyyy-mm-dd` of a date of the calendar. -/
def IsoText (s : String) (a : Date) : Prop :=
  ValidDate a ∧ a.y < 10000 ∧
    ∃ y1 y2 y3 y4 m1 m2 d1 d2 : Nat, y1 < 10 ∧ y2 < 10 ∧ y3 < 10 ∧ y4 < 10 ∧ m1 < 10 ∧ m2 < 10 ∧ d1 < 10 ∧ d2 < 10 ∧
      a.y = 1000 * y1 + 100 * y2 + 10 * y3 + y4 ∧ a.m = 10 * m1 + m2 ∧ a.d = 10 * d1 + d2 ∧
      s.toList = [Char.ofNat (48 + y1), Char.ofNat (48 + y2), Char.ofNat (48 + y3), Char.ofNat (48 + y4), '-',
        Char.ofNat (48 + m1), Char.ofNat (48 + m2), '-', Char.ofNat (48 + d1), Char.ofNat (48 + d2)]

/-- Months from the month of `a` to the month of `b`. -/
def monthsApart (a b : Date) : Int := (12 * (b.y : Int) + b.m) - (12 * (a.y : Int) + a.m)

/-- The names of the months. -/
def MonthNames : List String :=
  ["January", "February", "March", "April", "May", "June", "July", "August", "September", "October", "November", "December"]

/-- The text is the date as in `February 9, 2020`. -/
def EnglishText (a : Date) (t : String) : Prop :=
  ∃ name y1 y2 y3 y4, (∃ k, a.m = k + 1 ∧ MonthNames[k]? = some name) ∧ y1 < 10 ∧ y2 < 10 ∧ y3 < 10 ∧ y4 < 10 ∧
    a.y = 1000 * y1 + 100 * y2 + 10 * y3 + y4 ∧
    t = name ++ " " ++ toString a.d ++ ", " ++
      String.ofList [Char.ofNat (48 + y1), Char.ofNat (48 + y2), Char.ofNat (48 + y3), Char.ofNat (48 + y4)]

/-- A raw period is a start and an end with the first `/` between them, or an end only. -/
def Halves (s start stop : String) : Prop :=
  (s = start ++ "/" ++ stop ∧ '/' ∉ start.toList) ∨ (start = "" ∧ stop = s ∧ '/' ∉ s.toList)

/-- The end is a date that has a text `d`, and there is no start or the start is a date 30 or more days before. -/
def Telling (DateText : Date → String → Prop) (start stop : String) (b : Date) (d : String) : Prop :=
  IsoText stop b ∧ DateText b d ∧ (start = "" ∨ ∃ a n, IsoText start a ∧ 30 ≤ n ∧ DaysAfter a n b)

/-- The text of a period in a language with a text for dates and three phrases. -/
inductive Worded (DateText : Date → String → Prop) (asOf one many : String) (start stop : String) : String → Prop
  | instant (b d) : start = "" → Telling DateText start stop b d → Worded DateText asOf one many start stop (asOf ++ d)
  | one (a b d) : IsoText start a → Telling DateText start stop b d → monthsApart a b = 0 →
      Worded DateText asOf one many start stop (one ++ d)
  | many (a b d) (k : Nat) : IsoText start a → Telling DateText start stop b d → monthsApart a b = k + 1 →
      Worded DateText asOf one many start stop (toString (k + 2) ++ many ++ d)
  | duration : (∀ b d, ¬ Telling DateText start stop b d) → start ≠ "" → Worded DateText asOf one many start stop (start ++ "/" ++ stop)
  | plain : (∀ b d, ¬ Telling DateText start stop b d) → start = "" → Worded DateText asOf one many start stop stop

def EnglishPeriod : String → String → String → Prop := Worded EnglishText "as of " "1 month ended " " months ended "

def SpanishPeriod (spanish : Date → Option String) : String → String → String → Prop :=
  Worded (fun a t => spanish a = some t) "al " "un mes terminado al " " meses terminados al "

/-- `t` is the text of the raw period `s` in a language. -/
def PeriodText (spanish : Date → Option String) (lang s t : String) : Prop :=
  (lang = "en - english" ∧ ∃ start stop, Halves s start stop ∧ EnglishPeriod start stop t) ∨
  (lang = "es - español" ∧ ∃ start stop, Halves s start stop ∧ SpanishPeriod spanish start stop t) ∨
  (lang ≠ "en - english" ∧ lang ≠ "es - español" ∧ t = s)

end Telefacts.Render
