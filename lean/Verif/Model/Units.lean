import Verif.Model.Ui
import Verif.Model.Socket
import Verif.Model.Config

/-!
# The shipped systemd units (/repo/systemd) and what they permit

The units are transcribed line by line, without comments. Of what systemd makes of them (systemd.exec(5), systemd.resource-control(5)) this is modelled: which paths can be written, which groups of
system calls and which capabilities there are, which address families sockets may have, whether ports can be bound. Not modelled: name spaces for users and devices, `/proc`, memory protection,
clock, kernel logs, and everything that concerns only the programs started by the commander.
-/

namespace Ruroco

/-- Section, name and value of each assignment, in order. -/
abbrev UnitFile := List (List Char × List Char × List Char)

private def unitLine (s : String) (k v : String) : List Char × List Char × List Char := (s.toList, k.toList, v.toList)

/-- /repo/systemd/ruroco.service -/
def serverUnit : UnitFile :=
  [ unitLine "Unit" "Description" "ruroco service",
    unitLine "Unit" "Requires" "network-online.target ruroco.socket ruroco-commander.service",
    unitLine "Unit" "After" "network-online.target ruroco.socket ruroco-commander.service",
    unitLine "Service" "Type" "simple",
    unitLine "Service" "ExecStart" "/usr/local/bin/ruroco-server --config /etc/ruroco/config.toml",
    unitLine "Service" "Restart" "always",
    unitLine "Service" "User" "ruroco",
    unitLine "Service" "Group" "ruroco",
    unitLine "Service" "RemoveIPC" "true",
    unitLine "Service" "CapabilityBoundingSet" "",
    unitLine "Service" "AmbientCapabilities" "",
    unitLine "Service" "DeviceAllow" "",
    unitLine "Service" "KeyringMode" "private",
    unitLine "Service" "LockPersonality" "true",
    unitLine "Service" "MemoryDenyWriteExecute" "true",
    unitLine "Service" "NoNewPrivileges" "true",
    unitLine "Service" "PrivateDevices" "true",
    unitLine "Service" "PrivateTmp" "true",
    unitLine "Service" "PrivateUsers" "true",
    unitLine "Service" "ProcSubset" "pid",
    unitLine "Service" "ProtectClock" "true",
    unitLine "Service" "ProtectControlGroups" "true",
    unitLine "Service" "ProtectHome" "true",
    unitLine "Service" "ProtectHostname" "true",
    unitLine "Service" "ProtectKernelLogs" "true",
    unitLine "Service" "ProtectKernelModules" "true",
    unitLine "Service" "ProtectKernelTunables" "true",
    unitLine "Service" "ProtectProc" "noaccess",
    unitLine "Service" "ProtectSystem" "strict",
    unitLine "Service" "StateDirectory" "ruroco",
    unitLine "Service" "SocketBindDeny" "any",
    unitLine "Service" "RestrictAddressFamilies" "AF_UNIX",
    unitLine "Service" "RestrictNamespaces" "true",
    unitLine "Service" "RestrictRealtime" "true",
    unitLine "Service" "RestrictSUIDSGID" "true",
    unitLine "Service" "SystemCallArchitectures" "native",
    unitLine "Service" "SystemCallErrorNumber" "EPERM",
    unitLine "Service" "SystemCallFilter" "@system-service",
    unitLine "Service" "SystemCallFilter" "~@chown",
    unitLine "Service" "SystemCallFilter" "~@clock",
    unitLine "Service" "SystemCallFilter" "~@cpu-emulation",
    unitLine "Service" "SystemCallFilter" "~@debug",
    unitLine "Service" "SystemCallFilter" "~@keyring",
    unitLine "Service" "SystemCallFilter" "~@memlock",
    unitLine "Service" "SystemCallFilter" "~@module",
    unitLine "Service" "SystemCallFilter" "~@mount",
    unitLine "Service" "SystemCallFilter" "~@obsolete",
    unitLine "Service" "SystemCallFilter" "~@privileged",
    unitLine "Service" "SystemCallFilter" "~@raw-io",
    unitLine "Service" "SystemCallFilter" "~@reboot",
    unitLine "Service" "SystemCallFilter" "~@resources",
    unitLine "Service" "SystemCallFilter" "~@setuid",
    unitLine "Service" "UMask" "0077",
    unitLine "Install" "WantedBy" "multi-user.target" ]

/-- /repo/systemd/ruroco-commander.service -/
def commanderUnit : UnitFile :=
  [ unitLine "Unit" "Description" "ruroco commander service",
    unitLine "Unit" "Requires" "network-online.target",
    unitLine "Unit" "After" "network-online.target",
    unitLine "Service" "Type" "simple",
    unitLine "Service" "ExecStart" "/usr/local/bin/ruroco-commander --config /etc/ruroco/config.toml --commands /etc/ruroco/commands.toml",
    unitLine "Service" "Restart" "always",
    unitLine "Service" "CapabilityBoundingSet" "CAP_CHOWN CAP_DAC_OVERRIDE CAP_FOWNER CAP_NET_ADMIN CAP_NET_RAW",
    unitLine "Service" "AmbientCapabilities" "",
    unitLine "Service" "DeviceAllow" "",
    unitLine "Service" "LockPersonality" "true",
    unitLine "Service" "NoNewPrivileges" "true",
    unitLine "Service" "PrivateTmp" "true",
    unitLine "Service" "ProcSubset" "pid",
    unitLine "Service" "ProtectClock" "true",
    unitLine "Service" "ProtectHostname" "true",
    unitLine "Service" "ProtectKernelLogs" "true",
    unitLine "Service" "RestrictAddressFamilies" "AF_UNIX AF_NETLINK AF_INET AF_INET6",
    unitLine "Service" "RuntimeDirectory" "ruroco",
    unitLine "Service" "RuntimeDirectoryMode" "0755",
    unitLine "Service" "RestrictNamespaces" "true",
    unitLine "Service" "RestrictRealtime" "true",
    unitLine "Service" "RestrictSUIDSGID" "true",
    unitLine "Service" "SystemCallArchitectures" "native",
    unitLine "Service" "SystemCallErrorNumber" "EPERM",
    unitLine "Service" "SystemCallFilter" "~@clock",
    unitLine "Service" "SystemCallFilter" "~@cpu-emulation",
    unitLine "Service" "SystemCallFilter" "~@debug",
    unitLine "Service" "SystemCallFilter" "~@keyring",
    unitLine "Service" "SystemCallFilter" "~@memlock",
    unitLine "Service" "SystemCallFilter" "~@module",
    unitLine "Service" "SystemCallFilter" "~@obsolete",
    unitLine "Service" "SystemCallFilter" "~@raw-io",
    unitLine "Service" "SystemCallFilter" "~@reboot",
    unitLine "Service" "SystemCallFilter" "~@resources",
    unitLine "Service" "SystemCallFilter" "~@setuid",
    unitLine "Service" "UMask" "0077",
    unitLine "Install" "WantedBy" "multi-user.target" ]

/-- /repo/systemd/ruroco.socket -/
def socketUnit : UnitFile :=
  [ unitLine "Unit" "Description" "ruroco socket",
    unitLine "Unit" "PartOf" "ruroco.service",
    unitLine "Socket" "ListenDatagram" "[::]:80",
    unitLine "Install" "WantedBy" "sockets.target" ]

/-- /repo/config/config.toml, without comments. -/
def shippedConfig : Table :=
  [ ("ips".toList, .arr [.str "127.0.0.1".toList, .str "dead:beef:dead:beef:dead:beef:dead:beef".toList]),
    ("address".toList, .str "[::]:34020".toList),
    ("config_dir".toList, .str "/etc/ruroco/".toList),
    ("blocklist_dir".toList, .str "/var/lib/ruroco".toList),
    ("socket_dir".toList, .str "/run/ruroco".toList),
    ("socket_user".toList, .str "ruroco".toList),
    ("socket_group".toList, .str "ruroco".toList) ]

namespace UnitFile

/-- The values assigned to `key` in `[Service]`, in order. -/
def values (u : UnitFile) (key : String) : List (List Char) := u.filterMap (fun l => if l.1 = "Service".toList ∧ l.2.1 = key.toList then some l.2.2 else none)

/-- The words of all values of `key`. -/
def words (u : UnitFile) (key : String) : List (List Char) := (u.values key).flatMap splitWs

/-- The last value of `key` is `value`. -/
def isSet (u : UnitFile) (key value : String) : Bool := (u.values key).getLast? == some value.toList

/-- Components of a path as the kernel walks it: empty ones and `.` stay where they are, `..` goes up. Symbolic links are not considered. -/
def walk : List (List Char) → List (List Char) → List (List Char)
  | up, [] => up.reverse
  | up, c :: cs => if c = [] ∨ c = ".".toList then walk up cs else if c = "..".toList then walk up.tail cs else walk (c :: up) cs

def components (p : Path) : List (List Char) := walk [] (splitChars (· == '/') p)

/-- Directories that stay writable under `ProtectSystem=strict`. `/dev`, `/proc` and `/sys` are left out: nobody keeps files there. -/
def writableDirs (u : UnitFile) : List Path :=
  (u.words "StateDirectory").map ("/var/lib/".toList ++ ·) ++ (u.words "RuntimeDirectory").map ("/run/".toList ++ ·) ++ u.words "ReadWritePaths" ++
    if u.isSet "PrivateTmp" "true" then ["/tmp".toList, "/var/tmp".toList] else []

/-- `ProtectSystem` is `strict` or absent in the units; other values are not modelled. -/
def writable (u : UnitFile) (p : Path) : Bool := !(u.isSet "ProtectSystem" "strict") || u.writableDirs.any (fun d => (components d).isPrefixOf (components p))

/-- System calls: all those used here are in `@system-service`; `chown` is in `@chown` and `@privileged`, too, and needs the capability. -/
def callAllowed (u : UnitFile) (op : FileOp) : Bool :=
  let filters := u.words "SystemCallFilter"
  let listed := filters.filter (fun f => f.head? != some '~')
  (listed == [] || listed.contains "@system-service".toList) &&
    (op != .chown || (!(filters.contains "~@chown".toList) && !(filters.contains "~@privileged".toList) && (u.words "CapabilityBoundingSet").contains "CAP_CHOWN".toList))

/-- Sockets of this family can be used. -/
def family (u : UnitFile) (f : String) : Bool := u.values "RestrictAddressFamilies" == [] || (u.words "RestrictAddressFamilies").contains f.toList

/-- A UDP port can be bound by the service itself. -/
def mayBind (u : UnitFile) : Bool := !((u.words "SocketBindDeny").contains "any".toList) && (u.family "AF_INET" || u.family "AF_INET6")

/-- The server gets the socket it has chosen (/repo/src/server/socket.rs). An inherited descriptor needs no permission. -/
def grants (u : UnitFile) : Except Err Listen → Bool
  | .ok (.fd _) => true
  | .ok (.bind _) => u.mayBind
  | .error _ => false

end UnitFile

end Ruroco
