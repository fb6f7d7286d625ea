import Verif.Model.Commander
import Verif.Model.LogLine
import Verif.Model.Ui

/-!
# What the commander writes to its log
-/

namespace Ruroco

/-- The entries of the commander's log (/repo/src/commander/mod.rs:59-87, exec.rs:79-99, 172-178). `out`, `err`: what is shown as the output of the command. -/
inductive CmdrEntry where
  /-- mod.rs:66 -/
  | acceptFailed
  /-- mod.rs:63 -/
  | failed (e : Err)
  /-- mod.rs:84 -/
  | running (hash : U64) (cmd : List Char)
  /-- exec.rs:175 -/
  | refused (ip : Ip)
  /-- exec.rs:85-92 -/
  | finished (cmd : List Char) (ip : Ip) (success : Bool) (out err : List Char)
  /-- exec.rs:93-96 -/
  | timedOut (timeout : Nat) (cmd : List Char) (ip : Ip) (out err : List Char)
  /-- exec.rs:97 -/
  | execFailed (cmd : List Char) (ip : Ip) (e : Err)
deriving DecidableEq, Repr

/-- Written with `info` (else with `error`). -/
def CmdrEntry.isInfo : CmdrEntry → Bool
  | .running _ _ => true
  | .finished _ _ success _ _ => success
  | _ => false

/-- exec.rs:86: the part of the text common to both entries about an ended command. -/
def outcomeText (cmd : List Char) (ip : Ip) (out err : List Char) : List Char :=
  cmd ++ " for ".toList ++ showIp ip ++ "\nstdout: ".toList ++ out ++ "\nstderr: ".toList ++ err

/-- The text of an entry. `errText`: the text of an error; `socket`: the path of the socket as shown. A time limit is a whole number of seconds, which Rust shows as `30s`. -/
def CmdrEntry.text (errText : Err → List Char) (socket : List Char) : CmdrEntry → List Char
  | .acceptFailed => "Connection for ".toList ++ socket ++ " failed: ".toList ++ errText .io
  | .failed e => errText e
  | .running hash cmd => "Running command (".toList ++ showRadix 10 hash.toNat ++ ") ".toList ++ cmd
  | .refused ip => "refusing to execute with non-routable IP: ".toList ++ showIp ip
  | .finished cmd ip success out err => (if success then "Execution was successful: ".toList else "Execution was not successful: ".toList) ++ outcomeText cmd ip out err
  | .timedOut timeout cmd ip out err => "Execution timed out after ".toList ++ showRadix 10 timeout ++ "s and was killed: ".toList ++ outcomeText cmd ip out err
  | .execFailed cmd ip e => "Error executing ".toList ++ cmd ++ " for ".toList ++ showIp ip ++ ": ".toList ++ errText e

/-- exec.rs:112-113 `read_to_string(..).unwrap_or_default()`, the part about UTF-8. -/
def shownOutput (T : TextCodec) (data : List Byte) : List Char := (T.dec data).getD []

/-- exec.rs:79-99: the entry about one execution. -/
def reportOf (T : TextCodec) (spec : CommandSpec) (ip : Ip) : Option (Except Err (CommandExit × List Byte × List Byte)) → CmdrEntry
  | none => .refused ip
  | some (.ok (.completed s, out, err)) => .finished spec.cmd ip s (shownOutput T out) (shownOutput T err)
  | some (.ok (.timedOut, out, err)) => .timedOut spec.timeout spec.cmd ip (shownOutput T out) (shownOutput T err)
  | some (.error e) => .execFailed spec.cmd ip e

/-- mod.rs:78-82: the message and the command it selects. -/
def Commander.select (c : Commander) (timeoutFails : Bool) (bytes : List Byte) : Except Err (CommanderData × CommandSpec) :=
  if timeoutFails then .error .io
  else
    match Commander.read bytes with
    | .error e => .error e
    | .ok msg =>
      let d := CommanderData.ofBytes msg
      match c.cmds.get d.cmdHash with
      | none => .error .unknownCommand
      | some spec => .ok (d, spec)

/-- mod.rs:59-87: what is written to the log while the connections are served (`Commander.serve`); `w` is the state when the first is accepted. If the process dies during an execution, only the entry
written before it is there. -/
def Commander.serveLog (T : TextCodec) (c : Commander) (tmpPrefix : Path) : List Conn → World → List CmdrEntry
  | [], _ => []
  | .acceptFailed :: rest, w => .acceptFailed :: c.serveLog T tmpPrefix rest w
  | .stream tf bytes env :: rest, w =>
    match c.select tf bytes with
    | .error e => .failed e :: c.serveLog T tmpPrefix rest w
    | .ok (d, spec) =>
      .running d.cmdHash spec.cmd ::
        match c.runCommand tmpPrefix spec.cmd spec.timeout d.ip env w with
        | (.ok r, w') => reportOf T spec d.ip r :: c.serveLog T tmpPrefix rest w'
        | (.err _, w') => c.serveLog T tmpPrefix rest w'
        | (.crash, _) => []

end Ruroco
