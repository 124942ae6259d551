import Verif.Model.Server

/-! # What the server draws and reads when it makes a lock

`lfs_create_lock` (src/git/lfs/http.rs 208-224) takes the id of a new lock from the random number generator and its time from the clock. The other
modules take both texts as given (`Moment.lockId`, `Moment.now`); here they are computed from the numbers drawn and from the time. -/

namespace Gust

/-- A `DateTime<Utc>` by its calendar fields, as chrono computes them from the system time (that computation is not modelled; the year is not
negative). -/
structure ClockTime where
  year : Nat
  month : Nat
  day : Nat
  hour : Nat
  minute : Nat
  second : Nat
  nano : Nat
  deriving DecidableEq, Repr

/-- `{:0w}` of an unsigned number with at most `w` digits. -/
def digitsN : Nat → Nat → Bytes
  | 0, _ => []
  | w + 1, n => digitsN w (n / 10) ++ [digitChar (n % 10)]

/-- The offset of UTC in `to_rfc3339` (chrono 0.4.23, `format/mod.rs` `write_rfc3339`: no `Z`). -/
def utcOffset : Bytes := ascii "+00:00"

/-- The fraction of a second, `impl Debug for NaiveTime` of chrono (`naive/time/mod.rs`): none, three, six or nine digits. (Leap seconds, which the
system clock does not report, are left out.) -/
def fracText (n : Nat) : Bytes :=
  if n = 0 then []
  else if n % 1000000 = 0 then ascii "." ++ digitsN 3 (n / 1000000)
  else if n % 1000 = 0 then ascii "." ++ digitsN 6 (n / 1000)
  else ascii "." ++ digitsN 9 n

/-- The year, `impl Debug for NaiveDate` of chrono (`naive/date.rs`): four digits, and a sign in front when there are more. -/
def yearText (n : Nat) : Bytes := if n ≤ 9999 then digitsN 4 n else ascii "+" ++ decStr n

/-- `Utc::now().to_rfc3339()`, http.rs 219-222. -/
def rfc3339 (t : ClockTime) : Bytes :=
  yearText t.year ++ ascii "-" ++ digitsN 2 t.month ++ ascii "-" ++ digitsN 2 t.day ++ ascii "T" ++ digitsN 2 t.hour ++ ascii ":" ++ digitsN 2 t.minute ++
    ascii ":" ++ digitsN 2 t.second ++ fracText t.nano ++ utcOffset

/-- The id of a lock, http.rs 209-216: the decimal texts of the numbers drawn, eight of them, each in `0..9` (so never 9). -/
def lockIdText (draws : List Nat) : Bytes := draws.flatMap decStr

end Gust
