import Verif.Lemmas.Commander
import Verif.Props.IpFilter

/-!
# C26, C27 (execution), C29: which commands the commander starts
-/

namespace Ruroco

open Spec (commandText timeLimit spawns request commandFor NonRoutable)

/-! ## C26 -/

theorem getHashToCmd_eq (hash : List Char → U64) (commands : List (List Char × CommandValue)) :
    getHashToCmd hash commands = (commands.map (fun e => (hash e.1, (⟨e.2.cmd, e.2.timeout⟩ : CommandSpec)))).reverse := by
  unfold getHashToCmd
  suffices h : ∀ acc : CommandMap, commands.foldl (fun m e => (hash e.1, (⟨e.2.cmd, e.2.timeout⟩ : CommandSpec)) :: m) acc =
      (commands.map (fun e => (hash e.1, (⟨e.2.cmd, e.2.timeout⟩ : CommandSpec)))).reverse ++ acc by simp [h]
  induction commands with
  | nil => simp
  | cons x rest ih => intro acc; simp [ih]

/-- **C26a.** For every table in any iteration order and every hash function: what a received hash selects is the text and timeout of a configured
command whose name has that hash. -/
theorem C26_selected_is_configured (hash : List Char → U64) (commands : List (List Char × CommandValue)) (h : U64) (spec : CommandSpec)
    (hs : (getHashToCmd hash commands).get h = some spec) :
    ∃ name v, (name, v) ∈ commands ∧ hash name = h ∧ spec = ⟨commandText v, timeLimit v⟩ := by
  rw [getHashToCmd_eq] at hs
  unfold CommandMap.get at hs
  rw [Option.map_eq_some_iff] at hs
  obtain ⟨e, he, rfl⟩ := hs
  have hm := List.mem_of_find?_eq_some he
  have hh := List.find?_some he
  rw [List.mem_reverse, List.mem_map] at hm
  obtain ⟨⟨name, v⟩, hmem, rfl⟩ := hm
  refine ⟨name, v, hmem, by simpa using hh, ?_⟩
  cases v with
  | plain t => rfl
  | detailed t l => cases l <;> rfl

/-- **C26b.** A hash selects nothing iff no configured name has it. -/
theorem C26_unknown_hash (hash : List Char → U64) (commands : List (List Char × CommandValue)) (h : U64) :
    (getHashToCmd hash commands).get h = none ↔ ∀ name v, (name, v) ∈ commands → hash name ≠ h := by
  rw [getHashToCmd_eq]
  unfold CommandMap.get
  rw [Option.map_eq_none_iff, List.find?_eq_none]
  simp only [List.mem_reverse, List.mem_map, beq_iff_eq]
  constructor
  · intro hx name v hm he
    exact hx _ ⟨(name, v), hm, rfl⟩ he
  · rintro hx _ ⟨⟨name, v⟩, hm, rfl⟩
    exact hx name v hm

/-- **C26c.** If different configured names have different hashes, the hash of a configured name selects exactly its text and timeout. -/
theorem C26_configured_is_selected (hash : List Char → U64) (commands : List (List Char × CommandValue))
    (hnames : (commands.map Prod.fst).Nodup) (hinj : ∀ e ∈ commands, ∀ e' ∈ commands, hash e.1 = hash e'.1 → e.1 = e'.1) (name : List Char) (v : CommandValue)
    (hm : (name, v) ∈ commands) : (getHashToCmd hash commands).get (hash name) = some ⟨commandText v, timeLimit v⟩ := by
  cases hg : (getHashToCmd hash commands).get (hash name) with
  | none => exact absurd rfl ((C26_unknown_hash hash commands (hash name)).1 hg name v hm)
  | some spec =>
    obtain ⟨name', v', hm', hh, rfl⟩ := C26_selected_is_configured hash commands _ _ hg
    have : name' = name := hinj _ hm' _ hm hh
    subst this
    have : v' = v := by
      clear hg hinj hh
      induction commands with
      | nil => cases hm
      | cons x rest ih =>
        simp only [List.map_cons, List.nodup_cons] at hnames
        rcases List.mem_cons.1 hm with h1 | h1 <;> rcases List.mem_cons.1 hm' with h2 | h2
        · rw [← h1] at h2; exact (Prod.mk.inj h2).2
        · exact absurd (List.mem_map.2 ⟨_, h2, by rw [← h1]⟩) hnames.1
        · exact absurd (List.mem_map.2 ⟨_, h1, by rw [← h2]⟩) hnames.1
        · exact ih hnames.2 h2 h1
    rw [this]

/-- **C26d.** Serving any sequence of connections, whatever fails and wherever the process dies: every command started is the text of a configured
command, and it was started for a connection whose first eight bytes are the hash of that command's name and whose next sixteen bytes are the address. -/
theorem C26_only_configured_run (hash : List Char → U64) (commands : List (List Char × CommandValue)) (c : Commander)
    (hc : c.cmds = getHashToCmd hash commands) (pre : Path) (conns : List Conn) (w w' : World) (o : Out Unit) (hrun : c.serve pre conns w = (o, w')) :
    ∃ l, w'.log = w.log ++ l ∧ ∀ cmd ip, .spawn cmd ip ∈ l → ∃ k ∈ conns, ∃ name v, (name, v) ∈ commands ∧ commandText v = cmd ∧ request k = some (hash name, ip) := by
  obtain ⟨l, h1, h2⟩ := serve_spawns c pre conns w
  rw [hrun] at h1
  refine ⟨l, h1, ?_⟩
  intro cmd ip hm
  have : (cmd, ip) ∈ spawns l := by
    unfold spawns
    rw [List.mem_filterMap]
    exact ⟨_, hm, rfl⟩
  obtain ⟨k, hk, hf⟩ := List.mem_filterMap.1 (h2.subset this)
  unfold commandFor at hf
  cases hr : request k with
  | none => rw [hr] at hf; cases hf
  | some x =>
    obtain ⟨h, ip'⟩ := x
    rw [hr] at hf
    simp only at hf
    rw [hc] at hf
    cases hg : (getHashToCmd hash commands).get h with
    | none => rw [hg] at hf; cases hf
    | some spec =>
      rw [hg] at hf
      simp only at hf
      split at hf
      · cases hf
        obtain ⟨name, v, h3, h4, h5⟩ := C26_selected_is_configured _ _ _ _ hg
        exact ⟨k, hk, name, v, h3, by rw [h5], by rw [hr, h4]⟩
      · cases hf

/-! ## C27, execution -/

/-- **C27c.** Unless it is allowed in the configuration, no command is ever started with an address in a refused block, whatever bytes arrive. -/
theorem C27_no_command_for_refused (c : Commander) (ha : c.allowNonRoutable = false) (pre : Path) (conns : List Conn) (w w' : World) (o : Out Unit)
    (hrun : c.serve pre conns w = (o, w')) : ∃ l, w'.log = w.log ++ l ∧ ∀ cmd ip, .spawn cmd ip ∈ l → ¬ NonRoutable ip := by
  obtain ⟨l, h1, h2⟩ := serve_spawns c pre conns w
  rw [hrun] at h1
  refine ⟨l, h1, ?_⟩
  intro cmd ip hm
  have : (cmd, ip) ∈ spawns l := by
    unfold spawns
    rw [List.mem_filterMap]
    exact ⟨_, hm, rfl⟩
  obtain ⟨k, hk, hf⟩ := List.mem_filterMap.1 (h2.subset this)
  rw [← C27_refused_iff_in_block]
  unfold commandFor at hf
  split at hf
  · cases hf
  · split at hf
    · cases hf
    · split at hf
      · rename_i hr
        rw [ha] at hr
        cases hf
        simpa using hr
      · cases hf

/-! ## C29 -/

/-- **C29a.** The commander serves the whole sequence of connections, whatever they contain and whichever system calls fail, unless it is killed;
provided each execution ends (see `C28_deadline_enforced`). -/
theorem C29_keeps_serving (c : Commander) (pre : Path) (conns : List Conn) (hends : ∀ k ∈ conns, Ends c k) (w : World) (hw : NoCrash w.oracle) :
    (c.serve pre conns w).1 = .ok () := serve_alive c pre conns hends w hw

/-- **C29b.** With a working operating system, the commands started are exactly, in order, those the connections are entitled to, each judged by its own
bytes alone: no connection influences another. -/
theorem C29_connections_independent (c : Commander) (pre : Path) (conns : List Conn) (hends : ∀ k ∈ conns, Ends c k) (w : World) (hw : AllOk w)
    (hcl : ∀ t ∈ w.clock, t ≠ none) (hlen : 2 * conns.length ≤ w.clock.length) :
    ∃ l, (c.serve pre conns w).2.log = w.log ++ l ∧ spawns l = conns.filterMap (commandFor c) :=
  serve_exact c pre conns hends w hw hcl hlen

/-- **C29c.** With failing calls, a connection can at most lose its own command. -/
theorem C29_failures_only_omit (c : Commander) (pre : Path) (conns : List Conn) (w : World) :
    ∃ l, (c.serve pre conns w).2.log = w.log ++ l ∧ (spawns l).Sublist (conns.filterMap (commandFor c)) := serve_spawns c pre conns w

/-! ## Concrete case -/

/-- A toy hash: length of the name. -/
def exHash (n : List Char) : U64 := BitVec.ofNat 64 n.length

def exCommander : Commander where
  socketPath := "/run/ruroco/ruroco.socket".toList
  cmds := getHashToCmd exHash [("open".toList, .plain "ufw allow".toList), ("close!".toList, .detailed "ufw deny".toList (some 5))]
  socketUser := []
  socketGroup := []
  allowNonRoutable := false

/-- A child that exits successfully at 70 ms, polled at 0, 50 and 100 ms. -/
def exEnv : ChildEnv where
  startAt := 0
  exit := some (70000000, true)
  rounds := [⟨0, 0, false, false, false⟩, ⟨50000000, 50000000, false, false, false⟩, ⟨100000000, 100000000, false, false, false⟩]
  effect := id

def exConns : List Conn :=
  [.stream false [1, 2, 3] exEnv,                                           -- too short
   .stream false (beBytes 8 4 ++ serializeIp (.v4 0x08080808)) exEnv,       -- "open" for 8.8.8.8
   .acceptFailed,
   .stream false (beBytes 8 99 ++ serializeIp (.v4 0x08080808)) exEnv,      -- unknown hash
   .stream false (beBytes 8 4 ++ serializeIp (.v6 0xffff7f000001)) exEnv,   -- ::ffff:127.0.0.1
   .stream false (beBytes 8 6 ++ serializeIp (.v4 0x01020304) ++ [9]) exEnv]   -- "close!" for 1.2.3.4, trailing byte

example : exConns.filterMap (commandFor exCommander) = [("ufw allow".toList, .v4 0x08080808), ("ufw deny".toList, .v4 0x01020304)] := by decide +kernel

/-- All executions of `exConns` end, so the hypotheses of C29 hold of it. -/
theorem exConns_end : ∀ k ∈ exConns, Ends exCommander k := by
  have hk : ∀ h spec, exCommander.cmds.get h = some spec → pollLoop exEnv.exit (deadlineOf exEnv.startAt spec.timeout) exEnv.rounds ≠ .waiting := by
    intro h spec hs
    obtain ⟨name, v, hm, _, rfl⟩ := C26_selected_is_configured _ _ _ _ hs
    simp only [List.mem_cons, List.not_mem_nil, or_false] at hm
    rcases hm with hm | hm <;> cases hm <;> decide +kernel
  intro k hm
  simp only [exConns, List.mem_cons, List.not_mem_nil, or_false] at hm
  rcases hm with rfl | rfl | rfl | rfl | rfl | rfl
  · exact hk
  · exact hk
  · exact True.intro
  · exact hk
  · exact hk
  · exact hk

def exCmdrWorld (oracle : List Choice) : World where
  fs := fun _ => none
  pend := fun _ => []
  clock := (List.range 20).map (fun n => some (BitVec.ofNat 128 n))
  oracle := oracle
  umask := 0o022
  cur := []
  log := []

example : spawns (exCommander.serve "/tmp/ruroco-cmd-7-".toList exConns (exCmdrWorld [])).2.log =
    [("ufw allow".toList, .v4 0x08080808), ("ufw deny".toList, .v4 0x01020304)] := by decide +kernel

end Ruroco
