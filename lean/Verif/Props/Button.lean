import Verif.Spec.Button
import Verif.Props.SendContent
import Verif.Props.Ui

/-! # C103: the Execute button does what the command line does -/

namespace Ruroco

open Spec

/-! ## UTF-8 -/

theorem toBitVec_ofBitVec_list (l : List UInt8) : (l.map UInt8.toBitVec).map UInt8.ofBitVec = l := by
  rw [List.map_map]
  exact (List.map_congr_left (fun a _ => rfl)).trans (List.map_id l)

/-- What is written as UTF-8 is read back. -/
theorem utf8_faithful : Faithful utf8 := by
  intro t
  unfold utf8
  simp only
  rw [toBitVec_ofBitVec_list]
  have : (ByteArray.mk (t.flatMap String.utf8EncodeChar).toArray) = t.utf8Encode := by
    unfold List.utf8Encode
    rw [← List.data_toByteArray]
  rw [this, List.utf8Decode?_utf8Encode]
  rfl

/-! ## Trimming twice -/

theorem dropWhile_head {p : Char → Bool} (t : List Char) : (t.dropWhile p).dropWhile p = t.dropWhile p := by
  induction t with
  | nil => rfl
  | cons c t ih =>
    rw [List.dropWhile_cons]
    split
    · exact ih
    · rename_i h
      rw [List.dropWhile_cons, if_neg h]

theorem dropWhile_prefix {p : Char → Bool} {s t : List Char} (hs : s ≠ []) (h : s <+: t) (ht : t.dropWhile p = t) : s.dropWhile p = s := by
  cases s with
  | nil => exact absurd rfl hs
  | cons c s =>
    obtain ⟨r, rfl⟩ := h
    rw [List.cons_append, List.dropWhile_cons] at ht
    split at ht
    · have := congrArg List.length ht
      have hl := (List.dropWhile_sublist p (l := s ++ r)).length_le
      simp only [List.length_cons] at this
      omega
    · rename_i h
      rw [List.dropWhile_cons, if_neg h]

theorem trim_trim (t : List Char) : trim (trim t) = trim t := by
  unfold trim
  have h1 := dropWhile_head (p := isWs) t
  generalize t.dropWhile isWs = a at h1
  have h2 : (a.reverse.dropWhile isWs).reverse.dropWhile isWs = (a.reverse.dropWhile isWs).reverse := by
    by_cases hn : a.reverse.dropWhile isWs = []
    · rw [hn]; rfl
    · refine dropWhile_prefix (t := a) (by simpa using hn) ?_ h1
      have := List.reverse_prefix.2 (List.dropWhile_suffix isWs (l := a.reverse))
      rwa [List.reverse_reverse] at this
  rw [h2, List.reverse_reverse, dropWhile_head]

/-! ## Something was sent -/

/-- At least one datagram was handed to the network between the two. -/
def SentSome (w w' : World) : Prop := ∃ l, w'.log = w.log ++ l ∧ wire l ≠ []

theorem tried_sent {A : Aead} {hash : List Char → U64} {s : Sender} {i prev : Nat} {dsts : List SockAddr} {results : List Bool} {l : List Event}
    (h : Tried A hash s i prev dsts results l) (ht : true ∈ results) : wire l ≠ [] := by
  induction h with
  | nil => cases ht
  | @cons i prev a rest ok results c la l hle hlt ha h ih =>
    rw [wire_append, wire_append, wire_append]
    intro hn
    rw [List.append_eq_nil_iff, List.append_eq_nil_iff, List.append_eq_nil_iff] at hn
    obtain ⟨⟨⟨_, hla⟩, _⟩, hl⟩ := hn
    rcases List.mem_cons.1 ht with ht | ht
    · have hs := ha.sent ht.symm
      have : wire (.sendTo a.ip a.port :: la) = wire la := rfl
      rw [this, hs] at hla
      cases hla
    · exact ih ht hl

theorem send_some (A : Aead) (hash : List Char → U64) (s : Sender) (env : SendEnv) (w : World) : wp (s.send A hash env) w (fun o w' => o = .ok () → SentSome w w') := by
  unfold Sender.send
  rw [wp_bind, wp_ofExcept]
  cases hd : getDestinationIps s.cmd.ipv4 s.cmd.ipv6 (env.resolve s.cmd.address) with
  | error e => exact nofun
  | ok dsts =>
    simp only
    intro ho
    rcases hrun : s.sendToDestinations A hash env.rnd dsts w with ⟨o, w'⟩
    rw [hrun] at ho
    simp only at ho
    subst ho
    obtain ⟨results, l, hl, hlen, ht, _, hok⟩ := C34_every_destination_tried A hash env.rnd s dsts w w' _ hrun nofun
    refine ⟨l, hl, tried_sent ht ?_⟩
    have hne := (C35_bounds _ _ _ _ hd).choose_spec.2.1
    have := hok.1 rfl
    apply Classical.byContradiction
    intro hn
    exact this ⟨hne, fun r hr => by cases r with | false => rfl | true => exact absurd hr hn⟩

theorem createSend_some (A : Aead) (hash : List Char → U64) (dir : Path) (cmd : SendCmd) (env : SendEnv) (w : World) :
    wp (do let s ← Sender.create dir cmd env; s.send A hash env) w (fun o w' => o = .ok () → SentSome w w') := by
  rw [wp_bind]
  have hc : wp (Sender.create dir cmd env) w (fun _ w' => Logs (UdpOnly (fun _ _ _ _ => True)) w w') := create_logs _ dir cmd env w
  refine wp_mono hc ?_
  intro o w1 h1
  cases o with
  | err e => exact nofun
  | crash => exact nofun
  | ok s =>
    refine wp_mono (send_some A hash s env w1) ?_
    intro o w2 h2 ho
    obtain ⟨l1, e1, _⟩ := h1
    obtain ⟨l2, e2, hw⟩ := h2 ho
    refine ⟨l1 ++ l2, by rw [e2, e1, List.append_assoc], ?_⟩
    rw [wire_append]
    intro hn
    exact hw (List.append_eq_nil_iff.1 hn).2

/-! ## Any execution -/

/-- The options the button passes to the sender, with the key on the screen. -/
def buttonEnv (env : ExecEnv) (key : List Char) : SendEnv := ⟨some (trim key), env.resolve, env.rnd⟩

/-- All datagrams of a stretch of the execution are asked for by the screen; and if it succeeded, there is one. -/
def Pressed (A : Aead) (hash : List Char → U64) (env : ExecEnv) (key : List Char) (c : CommandData) (w : World) (o : Out Unit) (w' : World) : Prop :=
  Logs (UdpOnly (SendAsked A hash false c.toSend (buttonEnv env key))) w w' ∧ (o = .ok () → SentSome w w')

theorem logs_newTempFile (X : Ip → Nat → U128 → List Byte → Prop) (dir : Path) (draws : List (List Char)) : Always (Logs (UdpOnly X)) (newTempFile dir draws) := by
  induction draws with
  | nil => exact Always.throw (logs_pre _) _
  | cons d ds ih =>
    rw [newTempFile.eq_2]
    intro w
    show wp _ w (fun _ w' => Logs (UdpOnly X) w w')
    rw [wp_bind, wp_peek]
    simp only
    cases w.fs (tempKeyPath dir d) with
    | some f => exact ih w
    | none =>
      have h : Always (Logs (UdpOnly X)) (do
          atomicCall (.file .openTrunc (tempKeyPath dir d)) (fun w => w.setEntry (tempKeyPath dir d) (some ⟨[], 0o600 - (0o600 &&& w.umask), false, .creator⟩))
          pure (tempKeyPath dir d)) :=
        Always.bind (logs_pre _) (logs_call (fun _ _ _ _ h => nomatch h) (fun w => rfl)) (fun _ => Always.pure (logs_pre _) _)
      exact h w

theorem logs_writeAll (X : Ip → Nat → U128 → List Byte → Prop) (p : Path) (b : List Byte) (w : World) : wp (writeAll p b) w (fun _ w' => Logs (UdpOnly X) w w') := by
  have happ : ∀ (w : World) (b : List Byte), (w.append p b).log = w.log := by
    intro w b
    unfold World.append
    split <;> rfl
  have key : ∀ (o : List Choice) (b : List Byte), Logs (UdpOnly X) w (({ w with log := w.log ++ [.file .write p], oracle := o } : World).append p b) := by
    intro o b
    refine ⟨[.file .write p], happ _ _, ?_⟩
    intro e he
    cases List.mem_singleton.1 he
    intro _ _ _ _ h
    cases h
  unfold wp writeAll syscall
  cases w.oracle with
  | nil => exact key _ _
  | cons x o => cases x <;> exact key _ _

theorem sendWithKeyFile_pressed (A : Aead) (hash : List Char → U64) {T : TextCodec} (hT : Faithful T) (dir p : Path) (env : ExecEnv) (key : List Char) (c : CommandData) (w : World) (f : File)
    (hf : w.fs p = some f) (hd : f.data = T.enc (trim key)) : wp (sendWithKeyFile A hash T dir p env c) w (Pressed A hash env key c w) := by
  unfold sendWithKeyFile
  rw [wp_bind, wp_attempt]
  have h1 : wp (readFile p) w (fun _ w' => Logs (UdpOnly (SendAsked A hash false c.toSend (buttonEnv env key))) w w') := logs_readFile (fun _ _ _ _ h => nomatch h) w
  refine wp_mono (wp_and h1 (readFile_spec p w)) ?_
  rintro o w1 ⟨h1, _, _, hr⟩
  have rest : ∀ kt : Option (List Char), (kt = none ∨ kt = some (trim key)) →
      wp (do let s ← Sender.create dir c.toSend ⟨kt, env.resolve, env.rnd⟩; s.send A hash ⟨kt, env.resolve, env.rnd⟩) w1 (Pressed A hash env key c w) := by
    intro kt hkt
    refine wp_mono (wp_and (createSend_asked A hash dir c.toSend ⟨kt, env.resolve, env.rnd⟩ w1) (createSend_some A hash dir c.toSend ⟨kt, env.resolve, env.rnd⟩ w1)) ?_
    rintro o w2 ⟨⟨l, hl, hp⟩, hs⟩
    have h2 : Logs (UdpOnly (SendAsked A hash false c.toSend (buttonEnv env key))) w1 w2 := by
      refine ⟨l, hl, fun e he ip port ctr bytes hev => ?_⟩
      have := hp e he ip port ctr bytes hev
      rcases hkt with rfl | rfl
      · obtain ⟨_, k, _, _, _, _, hk, _⟩ := this
        cases hk
      · exact this
    refine ⟨(logs_pre _).trans h1 h2, fun ho => ?_⟩
    obtain ⟨l1, e1, _⟩ := h1
    obtain ⟨l2, e2, hw⟩ := hs ho
    refine ⟨l1 ++ l2, by rw [e2, e1, List.append_assoc], ?_⟩
    rw [wire_append]
    intro hn
    exact hw (List.append_eq_nil_iff.1 hn).2
  cases o with
  | crash => exact ⟨h1, nofun⟩
  | err e => exact rest none (Or.inl rfl)
  | ok b =>
    refine rest (T.dec b) (Or.inr ?_)
    rcases hr with ⟨f', hf', hb⟩ | ⟨hb, _⟩ | ⟨hb, _⟩ | hb
    · rw [hf] at hf'
      cases hf'
      cases hb
      rw [hd, hT]
    · cases hb
    · cases hb
    · cases hb

theorem SentSome.extend {w w1 w2 w3 : World} (h : SentSome w1 w2) (h0 : ∃ l, w1.log = w.log ++ l) (h2 : ∃ l, w3.log = w2.log ++ l) : SentSome w w3 := by
  obtain ⟨l, hl, hw⟩ := h
  obtain ⟨a, ha⟩ := h0
  obtain ⟨b, hb⟩ := h2
  refine ⟨a ++ l ++ b, by rw [hb, hl, ha, List.append_assoc, List.append_assoc, List.append_assoc], ?_⟩
  rw [wire_append, wire_append]
  intro hn
  rw [List.append_eq_nil_iff, List.append_eq_nil_iff] at hn
  exact hw hn.1.2

theorem execWithKey_pressed (A : Aead) (hash : List Char → U64) {T : TextCodec} (hT : Faithful T) (dir : Path) (env : ExecEnv) (key : List Char) (c : CommandData) (w : World) :
    wp (execWithKey A hash T dir env key c) w (Pressed A hash env key c w) := by
  unfold execWithKey
  split
  · rw [wp_bind]
    have hn : wp (newTempFile dir env.draws) w (fun _ w' => Logs (UdpOnly (SendAsked A hash false c.toSend (buttonEnv env key))) w w') := logs_newTempFile _ dir env.draws w
    refine wp_mono (wp_and hn (newTempFile_spec dir env.draws w)) ?_
    rintro o w1 ⟨l1, h1⟩
    cases o with
    | err e => exact ⟨l1, nofun⟩
    | crash => exact ⟨l1, nofun⟩
    | ok p =>
      cases h1 with
      | failed o w1 ho ht => exact absurd rfl (ho p)
      | made d hd o w1 habs ho ht f hf hm hdata =>
        obtain rfl : p = tempKeyPath dir d := by
          rcases ho with ho | ho
          · cases ho; rfl
          · cases ho
        simp only
        rw [wp_bind, wp_attempt, wp_bind]
        have finish : ∀ (r : Except Err Unit) (w2 : World), Logs (UdpOnly (SendAsked A hash false c.toSend (buttonEnv env key))) w w2 → (r = .ok () → SentSome w w2) →
            wp (do removeIgnoring (tempKeyPath dir d); Act.ofExcept r) w2 (Pressed A hash env key c w) := by
          intro r w2 h2 hs
          rw [wp_bind]
          have hrem : wp (removeIgnoring (tempKeyPath dir d)) w2 (fun _ w' => Logs (UdpOnly (SendAsked A hash false c.toSend (buttonEnv env key))) w2 w') :=
            logs_removeIgnoring (fun _ _ _ _ h => nomatch h) (fun _ _ _ _ h => nomatch h) w2
          refine wp_mono hrem ?_
          intro o w3 h3
          have h23 := (logs_pre _).trans h2 h3
          have hext : ∃ l, w3.log = w2.log ++ l := by obtain ⟨l, h, _⟩ := h3; exact ⟨l, h⟩
          cases o with
          | err e => exact ⟨h23, nofun⟩
          | crash => exact ⟨h23, nofun⟩
          | ok u =>
            simp only
            rw [wp_ofExcept]
            cases r with
            | error e => exact ⟨h23, nofun⟩
            | ok u => exact ⟨h23, fun _ => (hs rfl).extend ⟨[], by simp⟩ hext⟩
        refine wp_mono (wp_and (logs_writeAll (SendAsked A hash false c.toSend (buttonEnv env key)) _ _ w1) (writeAll_spec (tempKeyPath dir d) (T.enc (trim key)) w1 f hf)) ?_
        rintro o w2 ⟨l2, _, b, hb, _, _, _, hdat⟩
        have l12 := (logs_pre _).trans l1 l2
        cases o with
        | err e => exact finish _ w2 l12 nofun
        | crash => exact ⟨l12, nofun⟩
        | ok u =>
          simp only
          refine wp_mono (sendWithKeyFile_pressed A hash hT dir (tempKeyPath dir d) env key c w2 b hb (by rw [hdat rfl, hdata]; rfl)) ?_
          rintro o w3 ⟨l3, hs⟩
          have l123 := (logs_pre _).trans l12 l3
          have hext : ∃ l, w2.log = w.log ++ l := by obtain ⟨l, h, _⟩ := l12; exact ⟨l, h⟩
          cases o with
          | err e => exact finish _ w3 l123 nofun
          | crash => exact ⟨l123, nofun⟩
          | ok u => exact finish _ w3 l123 (fun _ => (hs rfl).extend hext ⟨[], by simp⟩)
  · exact ⟨(logs_pre _).refl w, nofun⟩

/-! ## The claimed address -/

theorem claimShown_iff (c : CommandData) (claimed : Option Ip) : parseIpOption c.toSend.ip = .ok claimed ↔ ClaimShown c claimed := by
  unfold parseIpOption CommandData.toSend ClaimShown
  simp only
  by_cases h : trim c.ip = []
  · rw [if_pos h]
    simp only
    constructor
    · intro h'; cases h'; exact Or.inl ⟨h, rfl⟩
    · rintro (⟨_, rfl⟩ | ⟨h', _⟩)
      · rfl
      · exact absurd h h'
  · rw [if_neg h]
    simp only
    cases hp : parseIp (trim c.ip) with
    | none =>
      simp only
      refine ⟨nofun, ?_⟩
      rintro (⟨h', _⟩ | ⟨_, a, ha, _⟩)
      · exact absurd h' h
      · cases ha
    | some a =>
      simp only
      constructor
      · intro h'; cases h'; exact Or.inr ⟨h, a, rfl, rfl⟩
      · rintro (⟨h', _⟩ | ⟨_, a', ha, rfl⟩)
        · exact absurd h' h
        · cases ha; rfl

/-- Pressing the button is executing the command, and showing the result. -/
theorem act_exec (C : ListCodec) (A : Aead) (hash : List Char → U64) (T : TextCodec) (dir : Path) (u : Ui) (env : ExecEnv) (key : List Char) (c : CommandData) (w : World) :
    u.act C A hash T dir (.exec env key c) w = (match execWithKey A hash T dir env key c w with
      | (.ok (), w') => (.ok (u.setStatus c (some true), .executed c true), w')
      | (.err _, w') => (.ok (u.setStatus c (some false), .executed c false), w')
      | (.crash, w') => (.crash, w')) := by
  show (do
    let r ← (execWithKey A hash T dir env key c).attempt
    match r with
    | .ok () => pure (u.setStatus c (some true), UiObs.executed c true)
    | .error _ => pure (u.setStatus c (some false), UiObs.executed c false) : Act (Ui × UiObs)) w = _
  simp only [bind, Act.bind, Act.attempt]
  rcases execWithKey A hash T dir env key c w with ⟨o, w'⟩
  cases o <;> rfl

/-- **C103**, safety. Pressing the button of a saved command, whatever fails or wherever the program dies: every datagram goes to an address the shown host resolved to, and opens, under the key
on the screen, to the shown command, strict unless the shown command is permissive, for the destination it goes to, claiming the address in the IP field, or none if the field is blank. -/
theorem C103_asks_what_is_shown (C : ListCodec) (A : Aead) (hA : A.Correct) (hash : List Char → U64) {T : TextCodec} (hT : Faithful T) (dir : Path) (u : Ui) (env : ExecEnv) (key : List Char)
    (c : CommandData) (w w' : World) (o : Out (Ui × UiObs)) (hrnd : ∀ i iv, env.rnd i = some iv → iv.length = 12) (hrun : u.act C A hash T dir (.exec env key c) w = (o, w')) (ip : Ip) (port : Nat)
    (ctr : U128) (bytes : List Byte) (hsent : .udp ip port ctr bytes ∈ w'.log.drop w.log.length) :
    ∃ h address all d claimed, CryptoHandler.create (trim key) = .ok h ∧ ensurePort c.address 80 = .ok address ∧ env.resolve address = some all ∧ ⟨ip, port⟩ ∈ all ∧
      bytes.length = 94 ∧ bytes.take 8 = h.id ∧ Seals A h.key bytes d ∧ d.cmdHash = hash c.command ∧ d.counter = ctr ∧ d.strict = !c.permissive ∧ d.dstIp = normalizeIp ip ∧
      ClaimShown c claimed ∧ (claimed ≠ some (.v6 0) → d.srcIp = claimed.map normalizeIp) := by
  have hlog : w' = (execWithKey A hash T dir env key c w).2 := by
    rw [act_exec] at hrun
    rcases hx : execWithKey A hash T dir env key c w with ⟨o, w1⟩
    rw [hx] at hrun
    cases o <;> exact (Prod.mk.inj hrun).2.symm
  have h := (execWithKey_pressed A hash hT dir env key c w).1
  rw [← hlog] at h
  obtain ⟨_, k, hd, src, address, dsts, h1, h2, h3, h4, h5, h6, i, iv, h7, h8⟩ := h.drop _ hsent ip port ctr bytes rfl
  cases h1
  obtain ⟨all, h9, _, _, h10, _⟩ := C35_bounds _ _ _ _ h5
  obtain ⟨_, hid, hk⟩ := (create_ok_iff _ _).1 h2
  obtain ⟨p1, p2, p3⟩ := packet_seals hA hid hk (hrnd i iv h7) h8
  rw [trim_trim] at h2
  refine ⟨hd, address, all, _, src, h2, h4, h9, h10 _ h6, p1, p2, p3, rfl, rfl, rfl, rfl, (claimShown_iff c src).1 h3, fun hne => ?_⟩
  show readSrc src = _
  cases src with
  | none => rfl
  | some a =>
    simp only [readSrc]
    rw [if_neg (fun h => hne (by rw [h]))]
    rfl

/-- **C103**, green is earned: a command shows green after the press only if at least one datagram was handed to the network during it. -/
theorem C103_green_means_sent (C : ListCodec) (A : Aead) (hash : List Char → U64) {T : TextCodec} (hT : Faithful T) (dir : Path) (u u' : Ui) (env : ExecEnv) (key : List Char)
    (c : CommandData) (w w' : World) (ob : UiObs) (hrun : u.act C A hash T dir (.exec env key c) w = (.ok (u', ob), w')) (hgreen : u'.colorFor c = .green) :
    ∃ ip port ctr bytes, .udp ip port ctr bytes ∈ w'.log.drop w.log.length := by
  rw [act_exec] at hrun
  have h := (execWithKey_pressed A hash hT dir env key c w).2
  rcases hx : execWithKey A hash T dir env key c w with ⟨o, w1⟩
  rw [hx] at hrun h
  have hcol : ∀ (u : Ui) (b : Bool), (u.setStatus c (some b)).colorFor c = if b then .green else .red := by
    intro u b
    unfold Ui.colorFor Ui.setStatus
    simp only [if_pos]
    cases b <;> rfl
  cases o with
  | crash => cases (Prod.mk.inj hrun).1
  | err e =>
    obtain ⟨h1, h2⟩ := Prod.mk.inj hrun
    cases h1
    rw [hcol] at hgreen
    cases hgreen
  | ok x =>
    obtain ⟨h1, h2⟩ := Prod.mk.inj hrun
    subst h2
    obtain ⟨l, hl, hw⟩ := h rfl
    simp only at hl
    rw [hl, List.drop_left]
    cases hwl : wire l with
    | nil => exact absurd hwl hw
    | cons ctr rest =>
      have : ctr ∈ wire l := by rw [hwl]; exact List.mem_cons_self ..
      unfold wire at this
      obtain ⟨ev, hev, hx⟩ := List.mem_filterMap.1 this
      cases ev with
      | udp ip port ctr' bytes => exact ⟨ip, port, ctr', bytes, hev⟩
      | _ => cases hx

/-! ## When nothing fails -/

theorem newTempFile_ok (dir : Path) (draws : List (List Char)) (w : World) (hok : AllOk w) (h : ∃ d ∈ draws, w.fs (tempKeyPath dir d) = none) :
    wp (newTempFile dir draws) w (fun o w' => ∃ d f, o = .ok (tempKeyPath dir d) ∧ AllOk w' ∧ w'.clock = w.clock ∧ datagrams w'.log = datagrams w.log ∧
      w'.fs (tempKeyPath dir d) = some f ∧ f.data = [] ∧ ∀ q, q ≠ tempKeyPath dir d → w'.fs q = w.fs q) := by
  induction draws with
  | nil => obtain ⟨_, h, _⟩ := h; cases h
  | cons d ds ih =>
    rw [newTempFile.eq_2, wp_bind, wp_peek]
    simp only
    cases hf : w.fs (tempKeyPath dir d) with
    | some f =>
      refine ih ?_
      obtain ⟨d', hd', h'⟩ := h
      rcases List.mem_cons.1 hd' with rfl | hd'
      · rw [hf] at h'; cases h'
      · exact ⟨d', hd', h'⟩
    | none =>
      simp only
      rw [wp_bind]
      apply wp_atomicCall_ok _ _ _ hok
      intro o ho
      simp only
      rw [wp_pure]
      refine ⟨d, _, rfl, ho, rfl, ?_, if_pos rfl, rfl, fun q hq => if_neg hq⟩
      show datagrams (w.log ++ [_]) = _
      rw [datagrams_append]
      exact List.append_nil _

theorem readFile_ok (p : Path) (w : World) (f : File) (hok : AllOk w) (hf : w.fs p = some f) :
    wp (readFile p) w (fun o w' => o = .ok f.data ∧ AllOk w' ∧ w'.clock = w.clock ∧ datagrams w'.log = datagrams w.log ∧ w'.fs = w.fs) := by
  unfold readFile
  rw [wp_bind]
  apply wp_atomicCall_ok _ _ _ hok
  intro o ho
  simp only [id]
  rw [wp_bind, wp_peek]
  simp only [hf]
  rw [wp_pure]
  refine ⟨rfl, ho, rfl, ?_, rfl⟩
  show datagrams (w.log ++ [_]) = _
  rw [datagrams_append]
  exact List.append_nil _

theorem dropTempFile_ok (p : Path) (w : World) (hok : AllOk w) :
    wp (removeIgnoring p) w (fun o w' => o = .ok () ∧ datagrams w'.log = datagrams w.log ∧ ∀ q, q ≠ p → w'.fs q = w.fs q) := by
  unfold removeIgnoring removeFile
  rw [wp_bind, wp_attempt, wp_bind, wp_peek]
  simp only
  cases hf : w.fs p with
  | none =>
    simp only
    rw [wp_throw]
    exact ⟨rfl, rfl, fun _ _ => rfl⟩
  | some f =>
    simp only
    apply wp_atomicCall_ok _ _ _ hok
    intro o ho
    simp only
    refine ⟨rfl, ?_, fun q hq => if_neg hq⟩
    show datagrams (w.log ++ [_]) = _
    rw [datagrams_append]
    exact List.append_nil _

theorem canSend_of_ready {dir : Path} {env : ExecEnv} {key : List Char} {c : CommandData} {h : CryptoHandler} {claimed : Option Ip} {dsts : List SockAddr} {c0 : U128} {w : World}
    (hb : ButtonReady dir env key c h claimed dsts c0 w) : CanSend dir c.toSend (buttonEnv env key) w h claimed dsts c0 :=
  ⟨⟨hb.disk, hb.clock.1, hb.clock.2⟩, hb.host, (claimShown_iff c claimed).2 hb.claims, ⟨trim key, rfl, by rw [trim_trim]; exact hb.key⟩, hb.random, hb.counter, hb.room⟩

theorem execWithKey_ok {A : Aead} (hA : A.Correct) (hash : List Char → U64) {T : TextCodec} (hT : Faithful T) (dir : Path) (env : ExecEnv) (key : List Char) (c : CommandData) (h : CryptoHandler)
    (claimed : Option Ip) (dsts : List SockAddr) (c0 : U128) (w : World) (hb : ButtonReady dir env key c h claimed dsts c0 w) :
    wp (execWithKey A hash T dir env key c) w (SentAll A hash dir c.toSend env.rnd h claimed dsts c0 w) := by
  unfold execWithKey
  rw [if_pos hb.folder, wp_bind]
  refine wp_mono (newTempFile_ok dir env.draws w hb.disk hb.name) ?_
  rintro o w1 ⟨d, f, rfl, hok1, hc1, hd1, hf1, hdat1, hfr1⟩
  simp only
  rw [wp_bind, wp_attempt, wp_bind]
  apply wp_writeAll_ok _ _ _ hok1
  intro o2 ho2
  have hne : counterPath dir ≠ tempKeyPath dir d := fun h => tempKey_not_counter dir d (Or.inl h.symm)
  generalize hw2 : (World.append { w1 with log := w1.log ++ [.file .write (tempKeyPath dir d)], oracle := o2 } (tempKeyPath dir d) (T.enc (trim key))) = w2
  have happ : w2.oracle = o2 ∧ w2.clock = w1.clock ∧ w2.log = w1.log ++ [.file .write (tempKeyPath dir d)] ∧ (∃ g, w2.fs (tempKeyPath dir d) = some g ∧ g.data = T.enc (trim key)) ∧
      ∀ q, q ≠ tempKeyPath dir d → w2.fs q = w1.fs q := by
    subst hw2
    unfold World.append
    simp only [hf1]
    refine ⟨rfl, rfl, rfl, ⟨_, if_pos rfl, by rw [hdat1]; rfl⟩, fun q hq => if_neg hq⟩
  clear hw2
  obtain ⟨ho2', hc2, hl2, ⟨g, hg, hgd⟩, hfr2⟩ := happ
  have hok2 : AllOk w2 := by intro x hx; rw [ho2'] at hx; exact ho2 x hx
  have hd2 : datagrams w2.log = datagrams w1.log := by rw [hl2, datagrams_append]; exact List.append_nil _
  simp only
  unfold sendWithKeyFile
  rw [wp_bind, wp_attempt]
  refine wp_mono (readFile_ok (tempKeyPath dir d) w2 g hok2 hg) ?_
  rintro o w3 ⟨rfl, hok3, hc3, hd3, hfs3⟩
  simp only
  rw [hgd, hT]
  have hcnt : w3.fs (counterPath dir) = w.fs (counterPath dir) := by rw [hfs3, hfr2 _ hne, hfr1 _ hne]
  have hclk : w3.clock = w.clock := by rw [hc3, hc2, hc1]
  have hcan : CanSend dir c.toSend (buttonEnv env key) w3 h claimed dsts c0 := by
    have := canSend_of_ready hb
    refine ⟨⟨hok3, by rw [hclk]; exact hb.clock.1, by rw [hclk]; exact hb.clock.2⟩, this.address, this.ip, this.key, this.random, ?_, this.room⟩
    unfold counterOnDisk
    rw [hcnt, hclk]
    exact hb.counter
  refine wp_mono (createSend_ok hA hash dir c.toSend (buttonEnv env key) w3 h claimed dsts c0 hcan) ?_
  rintro o w4 ⟨⟨rfl, hdisk, l, hd4, hlen, hl⟩, hok4⟩
  simp only
  rw [wp_bind]
  refine wp_mono (dropTempFile_ok (tempKeyPath dir d) w4 hok4) ?_
  rintro o w5 ⟨rfl, hd5, hfr5⟩
  simp only
  rw [wp_ofExcept]
  refine ⟨rfl, fun hn => ?_, l, by rw [hd5, hd4, hd3, hd2, hd1], hlen, hl⟩
  have := hdisk hn
  unfold counterOnDisk at this ⊢
  rw [hfr5 _ hne]
  exact this

/-- **C103**, same request. If nothing fails, the button turns green, and the datagrams are, byte for byte, those of `ruroco-client send` with the options on the screen (`cmd`), given the same
counter, addresses and random numbers. -/
theorem C103_same_as_command_line (C : ListCodec) (A : Aead) (hA : A.Correct) (hash : List Char → U64) {T : TextCodec} (hT : Faithful T) (dir : Path) (u : Ui) (env : ExecEnv) (key : List Char)
    (c : CommandData) (h : CryptoHandler) (claimed : Option Ip) (dsts : List SockAddr) (c0 : U128) (w : World) (hb : ButtonReady dir env key c h claimed dsts c0 w)
    (dir2 : Path) (cmd : SendCmd) (env2 : SendEnv) (w2 : World) (hcan : CanSend dir2 cmd env2 w2 h claimed dsts c0) (hcmd : cmd.command = c.command) (hperm : cmd.permissive = c.permissive)
    (hrnd : env2.rnd = env.rnd) :
    ∃ w' w2' sent, u.act C A hash T dir (.exec env key c) w = (.ok (u.setStatus c (some true), .executed c true), w') ∧ (u.setStatus c (some true)).colorFor c = .green ∧
      runSend A hash dir2 false cmd env2 w2 = (.ok (), w2') ∧ datagrams w'.log = datagrams w.log ++ sent ∧ datagrams w2'.log = datagrams w2.log ++ sent ∧ sent.length = dsts.length := by
  have h1 := execWithKey_ok hA hash hT dir env key c h claimed dsts c0 w hb
  have h2 := runSend_ok hA hash dir2 cmd env2 w2 h claimed dsts c0 hcan
  unfold wp at h1 h2
  rw [act_exec]
  rcases hx1 : execWithKey A hash T dir env key c w with ⟨o1, w1'⟩
  rcases hx2 : runSend A hash dir2 false cmd env2 w2 with ⟨o2, w2'⟩
  rw [hx1] at h1
  rw [hx2] at h2
  obtain ⟨e1, _, l1, hd1, hlen1, hl1⟩ := h1
  obtain ⟨e2, _, l2, hd2, hlen2, hl2⟩ := h2
  cases e1
  cases e2
  refine ⟨w1', w2', l1, rfl, ?_, rfl, hd1, ?_, hlen1⟩
  · unfold Ui.colorFor Ui.setStatus
    simp only [if_pos]
  · rw [hd2]
    congr 1
    apply List.ext_getElem?
    intro j
    cases hj : dsts[j]? with
    | none =>
      have hle := List.getElem?_eq_none_iff.1 hj
      rw [List.getElem?_eq_none (by omega), List.getElem?_eq_none (by omega)]
    | some a =>
      obtain ⟨c1, iv1, b1, a1, a2, _, a3, a4⟩ := hl1 j a hj
      obtain ⟨c2, iv2, b2, b1', b2', _, b3, b4⟩ := hl2 j a hj
      have hc : c1 = c2 := BitVec.eq_of_toNat_eq (by omega)
      rw [hrnd, a2] at b2'
      cases b2'
      subst hc
      rw [hcmd, hperm] at b3
      have : (c.toSend).command = c.command ∧ c.toSend.permissive = c.permissive := ⟨rfl, rfl⟩
      rw [this.1, this.2, b3] at a3
      cases a3
      rw [a4, b4]

/-- **C103**, end to end. If nothing fails, the button turns green, one datagram goes to each destination, with consecutive counters, and each is served as one from the command line (C37): a
server that admits it hands one message to the commander, which runs the command of that name once, for the claimed address or else the real one; and that server never acts on it again. -/
theorem C103_press_runs_the_command (C : ListCodec) (A : Aead) (hA : A.Correct) (hash : List Char → U64) {T : TextCodec} (hT : Faithful T) (dir : Path) (u : Ui) (env : ExecEnv) (key : List Char)
    (c : CommandData) (h : CryptoHandler) (claimed : Option Ip) (hclaim : claimed ≠ some (.v6 0)) (dsts : List SockAddr) (c0 : U128) (w : World)
    (hb : ButtonReady dir env key c h claimed dsts c0 w) :
    ∃ w' sent, u.act C A hash T dir (.exec env key c) w = (.ok (u.setStatus c (some true), .executed c true), w') ∧ datagrams w'.log = datagrams w.log ++ sent ∧ sent.length = dsts.length ∧
    ∀ (j : Nat) (a : SockAddr), dsts[j]? = some a → ∃ ctr dg, sent[j]? = some (a.ip, a.port, ctr, dg) ∧ ctr.toNat = c0.toNat + 1 + j ∧
      -- the server
      ∀ (s : Server) (listed : List Ip) (src : Ip) (rd : Readings) (rl : RateLimiter) (now t : U128) (cl : List (Option U128)) (ws ws' : World)
        (os : Out (Server × Except Err Unit)), s.bl.Wf → s.bl.map.length < 2 ^ 32 → AllOk ws → ws.clock = some now :: some t :: cl →
        Admits s listed h ctr.toNat a.ip (!c.permissive) claimed src now.toNat → RateOk s src rd rl → s.iteration A dg src rd ws = (os, ws') →
      ∃ s' msg, os = .ok (s', .ok ()) ∧ forwards ws'.log = forwards ws.log ++ [(ws.cur, ctr, msg)] ∧
        -- the commander
        (∀ (k : Commander) (commands : List (List Char × CommandValue)) (v : CommandValue) (ip : Ip) (pre : Path) (cenv : ChildEnv) (wk : World),
          SameHost ip (claimed.getD src) → ¬ Spec.IsMappedNotation ip → Executes k hash commands c.command v ip → Ends k (.stream false msg cenv) → Works 2 wk →
          ∃ l, (k.serve pre [.stream false msg cenv] wk).2.log = wk.log ++ l ∧ spawns l = [(commandText v, ip)]) ∧
        -- not again
        (∀ (src2 : Ip) (rd2 : Readings) (w2 : World), forwards (s'.iteration A dg src2 rd2 w2).2.log = forwards w2.log) := by
  have h1 := execWithKey_ok hA hash hT dir env key c h claimed dsts c0 w hb
  unfold wp at h1
  rw [act_exec]
  rcases hx1 : execWithKey A hash T dir env key c w with ⟨o1, w1'⟩
  rw [hx1] at h1
  obtain ⟨e1, _, l1, hd1, hlen1, hl1⟩ := h1
  cases e1
  refine ⟨w1', l1, rfl, hd1, hlen1, ?_⟩
  intro j a hj
  obtain ⟨ctr, iv, dg, a1, _, hiv, henc, hsent⟩ := hl1 j a hj
  obtain ⟨_, hid, hkl⟩ := (create_ok_iff _ _).1 hb.key
  exact ⟨ctr, dg, hsent, a1, servedOnce hA hash c.toSend h hid hkl claimed hclaim a ctr dg iv hiv henc⟩

/-! ## Concrete case -/

/-- The saved command "op" for host h, IPv4 only, claiming 8.8.8.8, with blanks around it. -/
def exButton : CommandData := addCommandName ⟨"h:80".toList, "open".toList, true, " 8.8.8.8 ".toList, true, false, []⟩

/-- `ButtonReady` holds: fresh client, key with a blank in front of it, the first name for the temporary file is free. -/
theorem exButton_ready : ButtonReady "/c".toList exExecEnv (' ' :: exClientKey) exButton exSenderKey (some (.v4 0x08080808)) [⟨.v4 0x0a000002, 80⟩] 1763290000000000000 (exUiWorld []) where
  key := by decide +kernel
  host := ⟨"h:80".toList, by decide +kernel, by decide +kernel⟩
  claims := Or.inr ⟨by decide +kernel, .v4 0x08080808, by decide +kernel, rfl⟩
  folder := rfl
  name := ⟨"Ab12".toList, List.mem_singleton.2 rfl, rfl⟩
  random := fun i => ⟨_, rfl, by simp⟩
  disk := fun o ho => nomatch (show o ∈ ([] : List Choice) from ho)
  clock := ⟨fun t ht => by
    rw [List.eq_of_mem_replicate (show t ∈ List.replicate 9 (some (1763290000000000000 : U128)) from ht)]
    exact nofun, Nat.le_of_ble_eq_true rfl⟩
  counter := Or.inr ⟨rfl, rfl⟩
  room := by decide +kernel

/-- And there the key is written and read as UTF-8. -/
example : ∃ w' sent, (Ui.mk [] [] (fun _ => none)).act toyListCodec toyAead exHash utf8 "/c".toList (.exec exExecEnv (' ' :: exClientKey) exButton) (exUiWorld []) =
    (.ok ((Ui.mk [] [] (fun _ => none)).setStatus exButton (some true), .executed exButton true), w') ∧ datagrams w'.log = sent ∧ sent.length = 1 := by
  obtain ⟨w', sent, h1, h2, h3, _⟩ := C103_press_runs_the_command toyListCodec toyAead toyAead_correct exHash utf8_faithful "/c".toList (Ui.mk [] [] (fun _ => none)) exExecEnv (' ' :: exClientKey)
    exButton exSenderKey _ (by decide +kernel) _ _ _ exButton_ready
  exact ⟨w', sent, h1, h2, h3⟩

/-- A red button: the key is no key, and nothing is sent. -/
example : (Ui.act toyListCodec toyAead exHash toyTextCodec "/c".toList (Ui.mk [] [] (fun _ => none)) (.exec exExecEnv "junk".toList exButton) (exUiWorld [])).2.log.all
    (fun e => match e with | .udp .. => false | _ => true) = true := by decide +kernel

/-- The bytes of "ü€" in UTF-8. -/
example : utf8.enc "ü€".toList = [0xc3, 0xbc, 0xe2, 0x82, 0xac] := by decide +kernel

end Ruroco
