import Verif.Model.IpText

/-!
# Log lines of the server and the shipped fail2ban filter
-/

namespace Ruroco

/-! ## /repo/src/common/logging.rs -/

/-- UTC date and time with milliseconds. -/
structure Stamp where
  year : Nat
  month : Nat
  day : Nat
  hour : Nat
  minute : Nat
  second : Nat
  milli : Nat

/-- chrono's zero-padded number. -/
def padNat (width n : Nat) : List Char := List.replicate (width - (showRadix 10 n).length) '0' ++ showRadix 10 n

/-- `%Y-%m-%dT%H:%M:%S` -/
def Stamp.showSeconds (s : Stamp) : List Char :=
  padNat 4 s.year ++ '-' :: padNat 2 s.month ++ '-' :: padNat 2 s.day ++ 'T' :: padNat 2 s.hour ++ ':' :: padNat 2 s.minute ++ ':' :: padNat 2 s.second

/-- logging.rs:56-58 `get_date_time`: `%Y-%m-%dT%H:%M:%S%.3fZ` (years up to 9999). -/
def Stamp.show (s : Stamp) : List Char := s.showSeconds ++ '.' :: padNat 3 s.milli ++ ['Z']

/-- logging.rs:22-26 `error`, without colours (standard error is not a terminal under systemd); `date` is `get_date_time()`. -/
def errorLine (date msg : List Char) : List Char := '[' :: date ++ " ERROR ] ".toList ++ msg

/-- The line as the journal gives it to fail2ban; `pre`: date and host name. -/
def journalLine (pre : List Char) (pid : Nat) (line : List Char) : List Char := pre ++ "ruroco-server[".toList ++ showRadix 10 pid ++ "]: ".toList ++ line

/-- /repo/src/server/listener.rs:97-99, `MSG_SIZE` being 94. -/
def wrongSizeText (count : Nat) (src : SockAddr) : List Char := "Invalid read count ".toList ++ showRadix 10 count ++ ", expected 94 from ".toList ++ showSockAddr src

/-- /repo/src/server/rate_limiter.rs:37 -/
def rateText (ip : Ip) (maxPerIp : Nat) : List Char := "Rate limit exceeded for ".toList ++ showIp ip ++ ": more than ".toList ++ showRadix 10 maxPerIp ++ " requests per second".toList

/-- /repo/src/server/error_throttle.rs:34-41, what is logged for an error with this text. -/
def throttledText (msg : List Char) (suppressed : Nat) : List Char :=
  if 0 < suppressed then msg ++ " (".toList ++ showRadix 10 suppressed ++ " more suppressed in the last 5s)".toList else msg

/-! ## /repo/fail2ban/filter.d/ruroco.conf -/

/-- Regular expressions, as far as the filter uses them. `host` is fail2ban's `<HOST>`. -/
inductive Rx where
  | eps
  | chr (p : Char → Bool)
  | seq (a b : Rx)
  | opt (a : Rx)
  | star (a : Rx)
  | host

/-- The texts an expression matches as a whole; which texts `<HOST>` matches is a parameter. -/
inductive Rx.Matches (host : List Char → Prop) : Rx → List Char → Prop where
  | eps : Matches host .eps []
  | chr (p : Char → Bool) (c : Char) (h : p c = true) : Matches host (.chr p) [c]
  | seq (a b : Rx) (s t : List Char) (ha : Matches host a s) (hb : Matches host b t) : Matches host (.seq a b) (s ++ t)
  | skip (a : Rx) : Matches host (.opt a) []
  | take (a : Rx) (s : List Char) (h : Matches host a s) : Matches host (.opt a) s
  | stop (a : Rx) : Matches host (.star a) []
  | step (a : Rx) (s t : List Char) (h : Matches host a s) (ht : Matches host (.star a) t) : Matches host (.star a) (s ++ t)
  | host (s : List Char) (h : host s) : Matches host .host s

/-- A literal text. -/
def Rx.lit : List Char → Rx
  | [] => .eps
  | c :: cs => .seq (.chr (· == c)) (.lit cs)

/-- A sequence. -/
def Rx.cat : List Rx → Rx
  | [] => .eps
  | r :: rs => .seq r (.cat rs)

/-- `\d` (ASCII digits). -/
def Rx.digit : Rx := .chr (fun c => '0' ≤ c && c ≤ '9')

/-- `\d+` -/
def Rx.digits : Rx := .seq .digit (.star .digit)

/-- `\d{n}` -/
def Rx.digitN : Nat → Rx
  | 0 => .eps
  | n + 1 => .seq .digit (.digitN n)

/-- The common beginning of both expressions, up to and including the `Z`: `^.*?ruroco-server\[\d+\]: \[\d{4}-\d{2}-\d{2}T\d{2}:\d{2}:\d{2}Z`. -/
def filterHead : List Rx :=
  [.star (.chr (· != '\n')), .lit "ruroco-server[".toList, .digits, .lit "]: [".toList, .digitN 4, .lit ['-'], .digitN 2, .lit ['-'], .digitN 2, .lit ['T'], .digitN 2, .lit [':'], .digitN 2,
   .lit [':'], .digitN 2, .lit ['Z']]

/-- `[^E]*ERROR[^\]]*\] ` -/
def filterLevel : List Rx := [.star (.chr (· != 'E')), .lit "ERROR".toList, .star (.chr (· != ']')), .lit "] ".toList]

/-- ruroco.conf:13, the first `failregex`. -/
def wrongSizeFilter : Rx :=
  .cat (filterHead ++ filterLevel ++ [.lit "Invalid read count ".toList, .digits, .lit ", expected ".toList, .digits, .lit " from ".toList, .opt (.lit ['[']), .host, .opt (.lit [']']), .lit [':'],
    .digits])

/-- ruroco.conf:14, the second. -/
def rateFilter : Rx :=
  .cat (filterHead ++ filterLevel ++ [.lit "Rate limit exceeded for ".toList, .host, .lit ": more than ".toList, .digits, .lit " requests per second".toList])

/-- ruroco.conf:17 `ignoreregex`. -/
def ignoreFilter : Rx := .cat [.star (.chr (· != '\n')), .lit " INFO ] Successfully ".toList, .star (.chr (· != '\n'))]

/-- fail2ban counts a line as an offence. -/
def Offence (host : List Char → Prop) (line : List Char) : Prop :=
  (wrongSizeFilter.Matches host line ∨ rateFilter.Matches host line) ∧ ¬ ignoreFilter.Matches host line

end Ruroco
