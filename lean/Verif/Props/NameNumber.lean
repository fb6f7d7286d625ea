import Verif.Model.Blake2b
import Verif.Props.AtMostOnce

/-! # C121: names and their numbers -/

namespace Ruroco

open Spec (datagrams forwards message SameHost NonRoutable spawns commandFor commandText timeLimit)

/-! ## The hash against published values (RFC 7693, appendix A; and `b2sum -l 64`) -/

example : Blake2b.digest 64 (utf8.enc "abc".toList) = beBytes 64
    0xba80a53f981c4d0d6a2797b69f12f6e94c212f14685ac4b74b12bb6fdbffa2d17d87c5392aab792dc252d5de4533cc9518d38aa8dbf1925ab92386edd4009923 := by decide +kernel

example : nameNumber [] = 0xe4a6a0577479b2b4 := by decide +kernel
example : nameNumber "é".toList = 0xcb1abf8beff3192f := by decide +kernel
example : nameNumber (List.replicate 129 'a') = 0xe462535bb0c5a299 := by decide +kernel

/-! ## When the command asked for is the command run -/

/-- The entry inserted last wins. -/
theorem getHashToCmd_last (hash : List Char → U64) (l : List (List Char × CommandValue)) (name : List Char) (v : CommandValue) :
    (getHashToCmd hash (l ++ [(name, v)])).get (hash name) = some ⟨commandText v, timeLimit v⟩ := by
  unfold getHashToCmd CommandMap.get
  rw [List.foldl_append]
  simp only [List.foldl_cons, List.foldl_nil, List.find?_cons, beq_self_eq_true, Option.map_some]
  cases v with
  | plain c => rfl
  | detailed c t => cases t <;> rfl

/-- **C121, exactly.** Whatever the hash: a request for a configured name runs that name's text with its time limit, in whatever order the commander goes through its table (a `HashMap`: any), if and only
if every configured name with the same number has the same text and time limit. -/
theorem C121_asked_is_run_iff (hash : List Char → U64) (commands : List (List Char × CommandValue)) (name : List Char) (v : CommandValue) (hm : (name, v) ∈ commands) :
    (∀ order : List (List Char × CommandValue), order.Perm commands → (getHashToCmd hash order).get (hash name) = some ⟨commandText v, timeLimit v⟩) ↔
      ∀ name' v', (name', v') ∈ commands → hash name' = hash name → commandText v' = commandText v ∧ timeLimit v' = timeLimit v := by
  constructor
  · intro h name' v' hm' heq
    obtain ⟨l1, l2, rfl⟩ := List.append_of_mem hm'
    have hp : (l1 ++ l2 ++ [(name', v')]).Perm (l1 ++ (name', v') :: l2) := by
      refine List.Perm.trans ?_ List.perm_middle.symm
      exact List.perm_append_comm
    have h1 := h _ hp
    rw [← heq, getHashToCmd_last] at h1
    injection h1 with h1
    injection h1 with h1 h2
    exact ⟨h1, h2⟩
  · intro h order hp
    cases hg : (getHashToCmd hash order).get (hash name) with
    | none => exact absurd rfl ((C26_unknown_hash hash order (hash name)).1 hg name v (hp.mem_iff.2 hm))
    | some spec =>
      obtain ⟨name', v', hm', heq, rfl⟩ := C26_selected_is_configured hash order _ _ hg
      obtain ⟨h1, h2⟩ := h name' v' (hp.mem_iff.1 hm') heq
      rw [h1, h2]

/-- **C121, in particular:** it holds when the configured names have different numbers. -/
theorem C121_asked_is_run_partial (hash : List Char → U64) (commands order : List (List Char × CommandValue)) (hp : order.Perm commands)
    (hnum : (commands.map (fun e => hash e.1)).Nodup) (name : List Char) (v : CommandValue) (hm : (name, v) ∈ commands) :
    (getHashToCmd hash order).get (hash name) = some ⟨commandText v, timeLimit v⟩ := by
  refine (C121_asked_is_run_iff hash commands name v hm).2 ?_ order hp
  have key : ∀ l : List (List Char × CommandValue), (l.map (fun e => hash e.1)).Nodup → ∀ x ∈ l, ∀ y ∈ l, hash x.1 = hash y.1 → x = y := by
    intro l
    induction l with
    | nil => intro _ x hx; cases hx
    | cons e l ih =>
      intro hn x hx y hy he
      rw [List.map_cons, List.nodup_cons] at hn
      rcases List.mem_cons.1 hx with rfl | hx' <;> rcases List.mem_cons.1 hy with rfl | hy'
      · rfl
      · exact absurd (List.mem_map.2 ⟨y, hy', he.symm⟩) hn.1
      · exact absurd (List.mem_map.2 ⟨x, hx', he⟩) hn.1
      · exact ih hn.2 x hx' y hy' he
  intro name' v' hm' heq
  have := key commands hnum _ hm' _ hm heq
  injection this with _ hv
  subst hv
  exact ⟨rfl, rfl⟩

/-! ## Names of the same number -/

/-- More things than values: two of them have the same. -/
theorem two_alike {n : Nat} (f : Nat → Nat) (hf : ∀ i, f i < n) : ∃ i j, i < j ∧ f i = f j := by
  apply Classical.byContradiction
  intro h
  have hn : ((List.range (n + 1)).map f).Nodup := by
    refine List.Pairwise.map f (R := fun a b => a < b) ?_ ?_
    · intro a b hab he
      exact h ⟨a, b, hab, he⟩
    · exact List.pairwise_lt_range
  have := nodup_length_le (m := List.range n) hn (by
    intro x hx
    obtain ⟨i, _, rfl⟩ := List.mem_map.1 hx
    exact List.mem_range.2 (hf i))
  simp only [List.length_map, List.length_range] at this
  omega

/-- **C121 cannot hold for all names**, whatever the hash: there are different names with the same number (64 bits), of letters only. -/
theorem C121_names_alike (hash : List Char → U64) : ∃ a b : List Char, a ≠ b ∧ hash a = hash b ∧ (∀ c ∈ a ++ b, c = 'a') := by
  obtain ⟨i, j, hij, he⟩ := two_alike (fun i => (hash (List.replicate i 'a')).toNat) (n := 2 ^ 64) (fun i => (hash (List.replicate i 'a')).isLt)
  refine ⟨List.replicate i 'a', List.replicate j 'a', ?_, BitVec.eq_of_toNat_eq he, ?_⟩
  · intro h
    have := congrArg List.length h
    simp only [List.length_replicate] at this
    omega
  · intro c hc
    rcases List.mem_append.1 hc with hc | hc
    · exact List.eq_of_mem_replicate hc
    · exact List.eq_of_mem_replicate hc

/-! ## Two such names, with the hash the programs use -/

def exOpens : List Char := "open_baokehinjhhpakcc".toList
def exShuts : List Char := "shut_nbklgkinclmegmin".toList

theorem exOpens_number : nameNumber exOpens = 0x1a161cd43caecbc1 := by decide +kernel
theorem exShuts_number : nameNumber exShuts = 0x1a161cd43caecbc1 := by decide +kernel

/-- A commander with a command under each of them, as its configuration lists them. -/
def exAlike : Commander := { exCommander with cmds := getHashToCmd nameNumber [(exOpens, .plain "ufw allow".toList), (exShuts, .plain "ufw deny".toList)] }

/-- The client that asks for the first. -/
def exAsk : SendCmd := { exOpen with command := exOpens }

/-- What the server hands over for its first datagram. -/
def exAskMsgs : List (List Byte × U128 × List Byte) :=
  match datagrams (runSend toyAead nameNumber "/c".toList false exAsk (exClientEnv exClientKey) (exDisk (some (beBytes 16 5000)) [])).2.log with
  | x :: _ => forwards (exServer.iteration toyAead x.2.2.2 (.v4 0x0a000001) exReadings (exWorld [])).2.log
  | [] => []

/-- **C121 is false**: these two names have the same number (found by search in minutes). A commander configured with both starts without complaint; a client asks for the first by its name, and the
command of the second is started. -/
theorem C121_other_command_runs : exOpens ≠ exShuts ∧ nameNumber exOpens = nameNumber exShuts ∧
    exAskMsgs.map (fun m => spawns (exAlike.serve [] [.stream false m.2.2 exEnv] (exCmdrWorld [])).2.log) = [[("ufw deny".toList, .v4 0x08080808)]] :=
  ⟨by decide +kernel, by rw [exOpens_number, exShuts_number], by decide +kernel⟩

/-! ## The names the project ships and documents -/

/-- /repo/config/commands.toml, /repo/README.md:333-335 and 403-404, and the name asked for by default (/repo/src/client/config/mod.rs `DEFAULT_COMMAND`). -/
def documentedNames : List (List Char) :=
  ["open_port".toList, "close_port".toList, "deploy".toList, "restart_app".toList, "run_backup".toList, "disable_file_browser".toList, "enable_file_browser".toList, "default".toList]

theorem documentedNames_numbers : documentedNames.map nameNumber =
    [0x9b93083959d8550a, 0x2694129e84af1e38, 0xb2531f535eb3e606, 0xb4e5bd4c6851b45c, 0x741bd050a0fa60e2, 0x0dc475c09fa8af9c, 0x10716ea640848060, 0xfe98b07b1ba6b3a2] := by
  decide +kernel

theorem documentedNames_differ : ∀ x ∈ documentedNames, ∀ y ∈ documentedNames, nameNumber x = nameNumber y → x = y := by
  have hnum : (documentedNames.map nameNumber).Nodup := by
    rw [documentedNames_numbers]
    decide +kernel
  generalize documentedNames = l at hnum
  induction l with
  | nil => intro x hx; cases hx
  | cons e l ih =>
    intro x hx y hy he
    rw [List.map_cons, List.nodup_cons] at hnum
    rcases List.mem_cons.1 hx with rfl | hx' <;> rcases List.mem_cons.1 hy with rfl | hy'
    · rfl
    · exact absurd (List.mem_map.2 ⟨y, hy', he.symm⟩) hnum.1
    · exact absurd (List.mem_map.2 ⟨x, hx', he⟩) hnum.1
    · exact ih hnum.2 x hx' y hy' he

/-- **C121 holds for these**: their numbers differ, so whatever is configured under them is what is run. -/
theorem C121_documented (commands order : List (List Char × CommandValue)) (hp : order.Perm commands) (hn : (commands.map Prod.fst).Nodup) (hdoc : ∀ e ∈ commands, e.1 ∈ documentedNames)
    (name : List Char) (v : CommandValue) (hm : (name, v) ∈ commands) : (getHashToCmd nameNumber order).get (nameNumber name) = some ⟨commandText v, timeLimit v⟩ := by
  have hinj := documentedNames_differ
  refine C121_asked_is_run_partial nameNumber commands order hp ?_ name v hm
  clear hm hp
  induction commands with
  | nil => exact List.nodup_nil
  | cons e l ih =>
    rw [List.map_cons, List.nodup_cons] at hn ⊢
    refine ⟨?_, ih hn.2 (fun x hx => hdoc x (List.mem_cons_of_mem _ hx))⟩
    intro hmem
    obtain ⟨x, hx, he⟩ := List.mem_map.1 hmem
    exact hn.1 (List.mem_map.2 ⟨x, hx, hinj _ (hdoc x (List.mem_cons_of_mem _ hx)) _ (hdoc e List.mem_cons_self) he⟩)

/-- The shipped commands meet what C37 asks of a commander, with the hash the programs use. -/
theorem exShipped_executes : Executes { exCommander with cmds := getHashToCmd nameNumber [("open_port".toList, .plain "ufw allow".toList), ("close_port".toList, .plain "ufw delete".toList)] } nameNumber
    [("open_port".toList, .plain "ufw allow".toList), ("close_port".toList, .plain "ufw delete".toList)] "open_port".toList (.plain "ufw allow".toList) (.v4 0x08080808) where
  table := rfl
  configured := by decide +kernel
  names := by decide +kernel
  collisionFree := fun e he e' he' h =>
    have hd : ∀ x ∈ [("open_port".toList, CommandValue.plain "ufw allow".toList), ("close_port".toList, .plain "ufw delete".toList)], x.1 ∈ documentedNames := by decide +kernel
    documentedNames_differ _ (hd e he) _ (hd e' he') h
  allowed := Or.inr (by rw [← C27_refused_iff_in_block]; decide +kernel)

example : (getHashToCmd nameNumber [("close_port".toList, .plain "ufw delete".toList), ("open_port".toList, .plain "ufw allow".toList)]).get (nameNumber "open_port".toList) =
    some ⟨"ufw allow".toList, 30⟩ :=
  C121_documented [("open_port".toList, .plain "ufw allow".toList), ("close_port".toList, .plain "ufw delete".toList)] _ (.swap _ _ _) (by decide +kernel) (by decide +kernel) _ _
    List.mem_cons_self

end Ruroco
