import Verif.Model.LogLine
import Verif.Spec.Address

/-!
# Words used in the statements of `Props/LogFilter.lean`
-/

namespace Ruroco

/-- A date chrono prints with four, two and three digits. -/
def Stamp.Ok (s : Stamp) : Prop := s.year < 10000 ∧ s.month < 100 ∧ s.day < 100 ∧ s.hour < 100 ∧ s.minute < 100 ∧ s.second < 100

/-- A complaint of the server that names the sender: a datagram of the wrong size from `src`, or too many datagrams from `ip`. -/
inductive Complaint where
  | wrongSize (count : Nat) (src : SockAddr)
  | rate (ip : Ip) (maxPerIp : Nat)

/-- The text of the complaint, as logged. -/
def Complaint.text : Complaint → List Char
  | .wrongSize count src => wrongSizeText count src
  | .rate ip n => rateText ip n

/-- The address complained about. -/
def Complaint.sender : Complaint → Ip
  | .wrongSize _ src => src.ip
  | .rate ip _ => ip

end Ruroco
