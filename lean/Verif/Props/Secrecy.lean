import Verif.Spec.Secrecy
import Verif.Model.ClientHistory
import Verif.Lemmas.Sys
import Verif.Lemmas.Crypto
import Verif.Props.KeyLife
import Verif.Props.ClientHistory
import Verif.Spec.Terms.Secrecy

/-!
# C90: the key is used for sealing and opening only
-/

namespace Ruroco

open Spec (SealAlike OpenAlike EntryAlike Pointwise DirAlike EvAlike KeyFileAlike CEvAlike)

/-! ## The client -/

/-- The same sender with another key. -/
def Sender.rekey (s : Sender) (k : CryptoHandler) : Sender := { s with handler := k }

theorem encode_alike {A1 A2 : Aead} {k1 k2 : CryptoHandler} (hid : k1.id = k2.id) (h : ∀ iv p, A1.enc k1.key iv p = A2.enc k2.key iv p) (rnd : Option (List Byte)) (data : List Byte) :
    encode A1 k1 rnd data = encode A2 k2 rnd data := by
  unfold encode CryptoHandler.encrypt
  cases rnd with
  | none => rfl
  | some iv => simp only [h, hid]

/-- The two runs do the same, and their results correspond. -/
def Same (R : α → β → Prop) (m1 : Act α) (m2 : Act β) : Prop :=
  ∀ w, (m1 w).2 = (m2 w).2 ∧ match (m1 w).1, (m2 w).1 with
    | .ok a, .ok b => R a b
    | .err e1, .err e2 => e1 = e2
    | .crash, .crash => True
    | _, _ => False

theorem Same.pure {R : α → β → Prop} {a : α} {b : β} (h : R a b) : Same R (Pure.pure a) (Pure.pure b) := fun _ => ⟨rfl, h⟩

theorem Same.throw {R : α → β → Prop} (e : Err) : Same R (Act.throw e) (Act.throw e) := fun _ => ⟨rfl, rfl⟩

theorem Same.refl {R : α → α → Prop} (h : ∀ a, R a a) (m : Act α) : Same R m m := by
  intro w
  refine ⟨rfl, ?_⟩
  cases (m w).1 with
  | ok a => exact h a
  | err e => rfl
  | crash => trivial

theorem Same.bind {R : α → β → Prop} {S : γ → δ → Prop} {m1 : Act α} {m2 : Act β} {f1 : α → Act γ} {f2 : β → Act δ} (h : Same R m1 m2) (hf : ∀ a b, R a b → Same S (f1 a) (f2 b)) :
    Same S (m1 >>= f1) (m2 >>= f2) := by
  intro w
  have h := h w
  cases h1 : m1 w with | mk o1 w1
  cases h2 : m2 w with | mk o2 w2
  rw [h1, h2] at h
  obtain ⟨h0, h⟩ := h
  have h0 : w1 = w2 := h0
  subst h0
  simp only [Bind.bind, Act.bind, h1, h2]
  cases o1 <;> cases o2 <;> first | exact h.elim | exact hf _ _ h w1 | exact ⟨rfl, h⟩

theorem Same.eq {m1 m2 : Act α} (h : Same Eq m1 m2) : m1 = m2 := by
  funext w
  have h := h w
  cases h1 : m1 w with | mk o1 w1
  cases h2 : m2 w with | mk o2 w2
  rw [h1, h2] at h
  obtain ⟨h0, h⟩ := h
  have h0 : w1 = w2 := h0
  subst h0
  cases o1 <;> cases o2 <;> first | exact h.elim | rfl | (have h := (h : _ = _); rw [h])

/-- Two senders that differ in a key that seals alike. -/
structure SenderAlike (A1 A2 : Aead) (s1 s2 : Sender) : Prop where
  cmd : s1.cmd = s2.cmd
  srcIp : s1.srcIp = s2.srcIp
  counter : s1.counter = s2.counter
  id : s1.handler.id = s2.handler.id
  enc : ∀ iv p, A1.enc s1.handler.key iv p = A2.enc s2.handler.key iv p

theorem same_sendData {A1 A2 : Aead} (hash : List Char → U64) {s1 s2 : Sender} (h : SenderAlike A1 A2 s1 s2) (addr : SockAddr) (rnd : Option (List Byte)) :
    Same (fun x y => SenderAlike A1 A2 x.1 y.1 ∧ x.2 = y.2) (s1.sendData A1 hash addr rnd) (s2.sendData A2 hash addr rnd) := by
  unfold Sender.sendData
  refine Same.bind (Same.refl (R := Eq) (fun _ => rfl) _) ?_
  rintro _ _ rfl
  rw [h.counter]
  refine Same.bind (Same.refl (R := Eq) (fun _ => rfl) _) ?_
  rintro ⟨c, r⟩ _ rfl
  have h' : SenderAlike A1 A2 { s1 with counter := c } { s2 with counter := c } := ⟨h.cmd, h.srcIp, rfl, h.id, h.enc⟩
  cases r with
  | error e => exact Same.pure ⟨h', rfl⟩
  | ok u =>
    have hreq : Sender.request hash { s1 with counter := c } addr.ip = Sender.request hash { s2 with counter := c } addr.ip := by
      unfold Sender.request
      simp only [h.cmd, h.srcIp]
    simp only [hreq, encode_alike h.id h.enc]
    cases encode A2 s2.handler rnd (Sender.request hash { s2 with counter := c } addr.ip).serialize with
    | error e => exact Same.pure ⟨h', rfl⟩
    | ok bytes =>
      refine Same.bind (Same.refl (R := Eq) (fun _ => rfl) _) ?_
      rintro r _ rfl
      exact Same.pure ⟨h', rfl⟩

theorem same_sendLoop {A1 A2 : Aead} (hash : List Char → U64) (rnd : Nat → Option (List Byte)) (dsts : List SockAddr) {s1 s2 : Sender} (h : SenderAlike A1 A2 s1 s2) (i : Nat) :
    Same (fun x y => SenderAlike A1 A2 x.1 y.1 ∧ x.2 = y.2) (s1.sendLoop A1 hash rnd i dsts) (s2.sendLoop A2 hash rnd i dsts) := by
  induction dsts generalizing s1 s2 i with
  | nil => exact Same.pure ⟨h, rfl⟩
  | cons a rest ih =>
    unfold Sender.sendLoop
    have hp : s1.pause i = s2.pause i := by unfold Sender.pause; rw [h.cmd]
    rw [hp]
    refine Same.bind (Same.refl (R := Eq) (fun _ => rfl) _) ?_
    rintro _ _ rfl
    refine Same.bind (same_sendData hash h a (rnd i)) ?_
    rintro ⟨x1, r⟩ ⟨x2, _⟩ ⟨hx, rfl⟩
    simp only
    cases r with
    | ok u => exact ih hx (i + 1)
    | error e =>
      refine Same.bind (Same.refl (R := Eq) (fun _ => rfl) _) ?_
      rintro _ _ rfl
      refine Same.bind (ih hx (i + 1)) ?_
      rintro ⟨y1, n⟩ ⟨y2, _⟩ ⟨hy, rfl⟩
      exact Same.pure ⟨hy, rfl⟩

theorem same_create {A1 A2 : Aead} (dir : Path) (cmd : SendCmd) (env : SendEnv) {t1 t2 : List Char} (h : SealAlike A1 (trim t1) A2 (trim t2)) :
    Same (SenderAlike A1 A2) (Sender.create dir cmd { env with keyText := some t1 }) (Sender.create dir cmd { env with keyText := some t2 }) := by
  unfold Sender.create
  refine Same.bind (Same.refl (R := Eq) (fun _ => rfl) _) ?_
  rintro addr _ rfl
  refine Same.bind (Same.refl (R := Eq) (fun _ => rfl) _) ?_
  rintro ip _ rfl
  simp only
  refine Same.bind (R := fun k1 k2 => k1.id = k2.id ∧ ∀ iv p, A1.enc k1.key iv p = A2.enc k2.key iv p) ?_ ?_
  · unfold SealAlike at h
    cases h1 : CryptoHandler.create (trim t1) <;> cases h2 : CryptoHandler.create (trim t2) <;> simp only [h1, h2] at h
    · subst h; exact Same.throw _
    · exact Same.pure h
  · rintro k1 k2 ⟨hid, henc⟩
    refine Same.bind (Same.refl (R := Eq) (fun _ => rfl) _) ?_
    rintro now _ rfl
    refine Same.bind (Same.refl (R := Eq) (fun _ => rfl) _) ?_
    rintro c _ rfl
    exact Same.pure ⟨rfl, rfl, rfl, hid, henc⟩

/-- **C90a.** Of two sends that differ in the key only, with keys that have the same id and seal alike (or are both refused), nobody can tell which is which: outcome, files, messages and
datagrams are the same, whatever fails and wherever the process dies. So the key leaves the client in no form but that of the sealed datagrams. -/
theorem C90_send (A1 A2 : Aead) (hash : List Char → U64) (dir : Path) (held : Bool) (cmd : SendCmd) (env : SendEnv) (t1 t2 : List Char) (h : SealAlike A1 (trim t1) A2 (trim t2)) (w : World) :
    runSend A1 hash dir held cmd { env with keyText := some t1 } w = runSend A2 hash dir held cmd { env with keyText := some t2 } w := by
  refine congrFun (Same.eq ?_) w
  unfold runSend
  refine Same.bind (Same.refl (R := Eq) (fun _ => rfl) _) ?_
  rintro _ _ rfl
  refine Same.bind (same_create dir cmd env h) ?_
  intro s1 s2 hs
  unfold Sender.send
  simp only [hs.cmd]
  refine Same.bind (Same.refl (R := Eq) (fun _ => rfl) _) ?_
  rintro dsts _ rfl
  unfold Sender.sendToDestinations
  refine Same.bind (same_sendLoop hash env.rnd dsts hs 0) ?_
  rintro ⟨x1, n⟩ ⟨x2, _⟩ ⟨_, rfl⟩
  exact Same.refl (fun _ => rfl) _

/-- Without a readable key file the cipher does not matter. -/
theorem runSend_no_key (A1 A2 : Aead) (hash : List Char → U64) (dir : Path) (held : Bool) (cmd : SendCmd) (r : List Char → Option (List SockAddr)) (n : Nat → Option (List Byte)) (w : World) :
    runSend A1 hash dir held cmd ⟨none, r, n⟩ w = runSend A2 hash dir held cmd ⟨none, r, n⟩ w := by
  refine congrFun (Same.eq ?_) w
  unfold runSend
  refine Same.bind (Same.refl (R := Eq) (fun _ => rfl) _) ?_
  rintro _ _ rfl
  unfold Sender.create
  refine Same.bind (R := fun _ _ => False) ?_ (fun _ _ h => h.elim)
  refine Same.bind (Same.refl (R := Eq) (fun _ => rfl) _) ?_
  rintro _ _ rfl
  refine Same.bind (Same.refl (R := Eq) (fun _ => rfl) _) ?_
  rintro _ _ rfl
  exact Same.throw _

theorem blankKeyText_create (id : List Byte) (h : id.length = 8) : CryptoHandler.create (trim (blankKeyText id)) = .ok ⟨List.replicate 32 0, id⟩ := by
  have ht : trim (blankKeyText id) = blankKeyText id := by
    have := trim_ws [] (blankKeyText id) [] nofun (b64Encode_no_ws _) nofun
    simpa using this
  rw [create_ok_iff, ht, ht]
  exact ⟨rfl, h, by simp⟩

/-- **C90b.** In other words: all a client does with its key could be done by somebody who has the id of the key and such a box. -/
theorem C90_send_without_the_key (A : Aead) (hash : List Char → U64) (dir : Path) (held : Bool) (cmd : SendCmd) (env : SendEnv) (t : List Char) (k : CryptoHandler)
    (hk : CryptoHandler.create (trim t) = .ok k) (w : World) :
    runSend A hash dir held cmd { env with keyText := some t } w = runSend (sealingBox A k.key) hash dir held cmd { env with keyText := some (blankKeyText k.id) } w := by
  refine C90_send A _ hash dir held cmd env t _ ?_ w
  unfold SealAlike
  rw [hk, blankKeyText_create k.id ((create_ok_iff _ _).1 hk).2.1]
  exact ⟨rfl, fun _ _ => rfl⟩

/-! ## The server -/

abbrev KeyAlike (A1 A2 : Aead) (k1 k2 : CryptoHandler) : Prop := k1.id = k2.id ∧ ∀ iv tag ct, A1.dec k1.key iv tag ct = A2.dec k2.key iv tag ct

abbrev HandlersAlike (A1 A2 : Aead) : Handlers → Handlers → Prop := Pointwise (fun x y => x.1 = y.1 ∧ KeyAlike A1 A2 x.2 y.2)

/-- Two servers that differ in their keys only. -/
structure ServerAlike (A1 A2 : Aead) (s1 s2 : Server) : Prop where
  cfg : s1.cfg = s2.cfg
  bl : s1.bl = s2.bl
  rl : s1.rl = s2.rl
  throttle : s1.throttle = s2.throttle
  keys : HandlersAlike A1 A2 s1.handlers s2.handlers

theorem get_alike {A1 A2 : Aead} {m1 m2 : Handlers} (h : HandlersAlike A1 A2 m1 m2) (id : List Byte) :
    (m1.get id = none ∧ m2.get id = none) ∨ ∃ k1 k2, m1.get id = some k1 ∧ m2.get id = some k2 ∧ KeyAlike A1 A2 k1 k2 := by
  induction h with
  | nil => exact Or.inl ⟨rfl, rfl⟩
  | @cons a b as bs hab _ ih =>
    obtain ⟨i1, k1⟩ := a
    obtain ⟨i2, k2⟩ := b
    obtain ⟨hi, hk⟩ := hab
    simp only at hi hk
    subst hi
    unfold Handlers.get
    by_cases hid : i1 = id
    · rw [if_pos hid, if_pos hid]
      exact Or.inr ⟨k1, k2, rfl, rfl, hk⟩
    · rw [if_neg hid, if_neg hid]
      exact ih

theorem append_alike {R : α → β → Prop} {a1 b1 : List α} {a2 b2 : List β} (ha : Pointwise R a1 a2) (hb : Pointwise R b1 b2) : Pointwise R (a1 ++ b1) (a2 ++ b2) := by
  induction ha with
  | nil => exact hb
  | cons h _ ih => exact .cons h ih

theorem loadKeys_alike {A1 A2 : Aead} {d1 d2 : List DirEntry} (h : Pointwise (EntryAlike A1 A2) d1 d2) {m1 m2 : Handlers} (hm : HandlersAlike A1 A2 m1 m2) :
    match loadKeys d1 m1, loadKeys d2 m2 with
    | .ok r1, .ok r2 => HandlersAlike A1 A2 r1 r2
    | .error e1, .error e2 => e1 = e2
    | _, _ => False := by
  induction h generalizing m1 m2 with
  | nil => exact hm
  | @cons a b as bs hab _ ih =>
    obtain ⟨_, _, hc⟩ := hab
    unfold loadKeys
    cases h1 : a.content <;> cases h2 : b.content <;> simp only [h1, h2] at hc ⊢
    rename_i t1 t2
    unfold OpenAlike at hc
    cases h3 : CryptoHandler.create t1 <;> cases h4 : CryptoHandler.create t2 <;> simp only [h3, h4] at hc ⊢
    · exact hc
    · rename_i k1 k2
      rw [hc.1]
      rcases get_alike hm k2.id with ⟨h5, h6⟩ | ⟨x1, x2, h5, h6, _⟩
      · simp only [h5, h6]
        exact ih (append_alike hm (.cons ⟨rfl, hc⟩ .nil))
      · simp only [h5, h6]

theorem keyPaths_alike {A1 A2 : Aead} {d1 d2 : Option (List DirEntry)} (h : DirAlike A1 A2 d1 d2) :
    match getKeyPaths d1, getKeyPaths d2 with
    | .ok r1, .ok r2 => Pointwise (EntryAlike A1 A2) r1 r2
    | .error e1, .error e2 => e1 = e2
    | _, _ => False := by
  cases d1 <;> cases d2 <;> simp only [DirAlike] at h
  · rfl
  · rename_i l1 l2
    have hf : Pointwise (EntryAlike A1 A2) (l1.filter (fun e => e.isFile && extension e.name == some "key".toList)) (l2.filter (fun e => e.isFile && extension e.name == some "key".toList)) := by
      induction h with
      | nil => exact .nil
      | @cons a b as bs hab _ ih =>
        have he : (a.isFile && extension a.name == some "key".toList) = (b.isFile && extension b.name == some "key".toList) := by rw [hab.1, hab.2.1]
        cases hv : (b.isFile && extension b.name == some "key".toList) with
        | false => rw [List.filter_cons_of_neg (by rw [he, hv]; decide), List.filter_cons_of_neg (by rw [hv]; decide)]; exact ih
        | true => rw [List.filter_cons_of_pos (by rw [he, hv]), List.filter_cons_of_pos (by rw [hv])]; exact .cons hab ih
    unfold getKeyPaths
    simp only
    revert hf
    generalize l1.filter (fun e => e.isFile && extension e.name == some "key".toList) = f1
    generalize l2.filter (fun e => e.isFile && extension e.name == some "key".toList) = f2
    intro hf
    cases hf with
    | nil => rfl
    | cons h1 h2 => exact .cons h1 h2

theorem seed_alike {A1 A2 : Aead} {m1 m2 : Handlers} (h : HandlersAlike A1 A2 m1 m2) (floor : U128) (b : Blocklist) :
    m1.foldl (fun b h => b.seedIfAbsent h.1 floor) b = m2.foldl (fun b h => b.seedIfAbsent h.1 floor) b := by
  induction h generalizing b with
  | nil => rfl
  | cons hab _ ih => simp only [List.foldl_cons, hab.1, ih]

theorem same_start {A1 A2 : Aead} (cfg : ServerCfg) (e1 e2 : StartEnv) (hd : DirAlike A1 A2 e1.dir e2.dir) (ho : e1.order = e2.order) (hb : e1.bindOk = e2.bindOk) (hm : e1.mono = e2.mono) :
    Same (ServerAlike A1 A2) (Server.create cfg e1) (Server.create cfg e2) := by
  unfold Server.create
  refine Same.bind (R := HandlersAlike A1 A2) ?_ ?_
  · have hk := keyPaths_alike hd
    unfold createCryptoHandlers
    cases h1 : getKeyPaths e1.dir <;> cases h2 : getKeyPaths e2.dir <;> simp only [h1, h2] at hk ⊢
    · subst hk; exact Same.throw _
    · rename_i p1 p2
      have hl := loadKeys_alike hk (.nil : HandlersAlike A1 A2 [] [])
      cases h3 : loadKeys p1 [] <;> cases h4 : loadKeys p2 [] <;> simp only [h3, h4] at hl
      · subst hl; exact Same.throw _
      · exact Same.pure hl
  · intro m1 m2 hk
    rw [ho]
    refine Same.bind (Same.refl (R := Eq) (fun _ => rfl) _) ?_
    rintro bl _ rfl
    refine Same.bind (Same.refl (R := Eq) (fun _ => rfl) _) ?_
    rintro floor _ rfl
    rw [seed_alike hk]
    refine Same.bind (Same.refl (R := Eq) (fun _ => rfl) _) ?_
    rintro _ _ rfl
    rw [hb]
    split
    · exact Same.pure ⟨rfl, rfl, by rw [hm], rfl, hk⟩
    · exact Same.throw _

theorem same_validate {A1 A2 : Aead} {s1 s2 : Server} (h : ServerAlike A1 A2 s1 s2) (id p : List Byte) (src : Ip) :
    Same (fun x y => ServerAlike A1 A2 x.1 y.1 ∧ x.2 = y.2) (s1.validateAndSend id p src) (s2.validateAndSend id p src) := by
  unfold Server.validateAndSend
  refine Same.bind (Same.refl (R := Eq) (fun _ => rfl) _) ?_
  rintro now _ rfl
  cases now with
  | error e => exact Same.pure ⟨h, rfl⟩
  | ok now =>
    simp only [h.cfg, h.bl]
    cases ClientData.deserialize p with
    | error e => exact Same.pure ⟨h, rfl⟩
    | ok d =>
      simp only
      split
      · exact Same.pure ⟨h, rfl⟩
      split
      · exact Same.pure ⟨h, rfl⟩
      split
      · exact Same.pure ⟨h, rfl⟩
      split
      · exact Same.pure ⟨h, rfl⟩
      refine Same.bind (R := fun x y => ServerAlike A1 A2 x.1 y.1 ∧ x.2 = y.2) ?_ ?_
      · unfold Server.updateBlockList
        rw [h.bl]
        refine Same.bind (Same.refl (R := Eq) (fun _ => rfl) _) ?_
        rintro r _ rfl
        cases r with
        | error e => exact Same.pure ⟨⟨h.cfg, rfl, h.rl, h.throttle, h.keys⟩, rfl⟩
        | ok u => exact Same.pure ⟨⟨h.cfg, rfl, h.rl, h.throttle, h.keys⟩, rfl⟩
      · rintro ⟨x1, r⟩ ⟨x2, _⟩ ⟨hx, rfl⟩
        simp only
        cases r with
        | error e => exact Same.pure ⟨hx, rfl⟩
        | ok u =>
          refine Same.bind (Same.refl (R := Eq) (fun _ => rfl) _) ?_
          rintro _ _ rfl
          exact Same.pure ⟨hx, rfl⟩

theorem decrypt_alike {A1 A2 : Aead} {s1 s2 : Server} (h : ServerAlike A1 A2 s1 s2) (data : List Byte) : s1.decryptMsg A1 data = s2.decryptMsg A2 data := by
  unfold Server.decryptMsg
  simp only
  rcases get_alike h.keys (decode data).1 with ⟨h1, h2⟩ | ⟨k1, k2, h1, h2, _, hk⟩
  · rw [h1, h2]
  · rw [h1, h2]
    unfold CryptoHandler.decrypt
    simp only [hk]

theorem same_datagram {A1 A2 : Aead} {s1 s2 : Server} (h : ServerAlike A1 A2 s1 s2) (dg : List Byte) (src : Ip) (rd : Readings) (tLog : Nat) :
    Same (fun x y => ServerAlike A1 A2 x.1 y.1 ∧ x.2 = y.2) (s1.handleDatagram A1 dg src rd tLog) (s2.handleDatagram A2 dg src rd tLog) := by
  unfold Server.handleDatagram
  refine Same.bind (R := fun x y => ServerAlike A1 A2 x.1 y.1 ∧ x.2 = y.2) ?_ ?_
  · unfold Server.iteration
    simp only
    split
    · exact Same.pure ⟨h, rfl⟩
    · have hc : s1.rl.check (normalizeIp src) s1.cfg.maxPerIp s1.cfg.maxGlobal rd = s2.rl.check (normalizeIp src) s2.cfg.maxPerIp s2.cfg.maxGlobal rd := by rw [h.rl, h.cfg]
      rw [hc]
      generalize s2.rl.check (normalizeIp src) s2.cfg.maxPerIp s2.cfg.maxGlobal rd = x
      obtain ⟨v, rl⟩ := x
      have hr : ServerAlike A1 A2 { s1 with rl } { s2 with rl } := ⟨h.cfg, h.bl, rfl, h.throttle, h.keys⟩
      cases v with
      | error e => exact Same.pure ⟨hr, rfl⟩
      | ok u =>
        simp only
        rw [decrypt_alike (A1 := A1) (A2 := A2) (s1 := { s1 with rl }) (s2 := { s2 with rl }) hr]
        cases Server.decryptMsg A2 { s2 with rl } (dg.take MSG_SIZE) with
        | error e => exact Same.pure ⟨hr, rfl⟩
        | ok p => exact same_validate hr _ _ _
  · rintro ⟨x1, r⟩ ⟨x2, _⟩ ⟨hx, rfl⟩
    simp only
    cases r with
    | error e => exact Same.pure ⟨⟨hx.cfg, hx.bl, hx.rl, by rw [hx.throttle], hx.keys⟩, rfl⟩
    | ok u => exact Same.pure ⟨hx, rfl⟩

theorem pointwise_snoc {R : α → β → Prop} {as : List α} {a : α} {l : List β} (h : Pointwise R (as ++ [a]) l) : ∃ bs b, l = bs ++ [b] ∧ Pointwise R as bs ∧ R a b := by
  induction as generalizing l with
  | nil =>
    cases h with
    | cons h1 h2 => cases h2; exact ⟨[], _, rfl, .nil, h1⟩
  | cons x xs ih =>
    cases h with
    | cons h1 h2 =>
      obtain ⟨bs, b, rfl, h3, h4⟩ := ih h2
      exact ⟨_ :: bs, b, rfl, .cons h1 h3, h4⟩

/-- Two systems that differ in the keys of the running server only. -/
def SysAlike (A1 A2 : Aead) (s1 s2 : Sys) : Prop :=
  s1.w = s2.w ∧ match s1.srv, s2.srv with
    | none, none => True
    | some x, some y => ServerAlike A1 A2 x y
    | _, _ => False

theorem step_alike {A1 A2 : Aead} {dir : Path} {s1 s1' s2 : Sys} {e1 e2 : Ev} (hs : Step A1 dir s1 e1 s1') (hsys : SysAlike A1 A2 s1 s2) (he : EvAlike A1 A2 e1 e2) :
    ∃ s2', Step A2 dir s2 e2 s2' ∧ SysAlike A1 A2 s1' s2' := by
  obtain ⟨w2, srv2⟩ := s2
  obtain ⟨hw, hsrv⟩ := hsys
  cases hs with
  | started w env cfg senv s w' hdir hord h =>
    cases e2 <;> simp only [EvAlike] at he
    rename_i env2 cfg2 senv2
    obtain ⟨rfl, rfl, hd, ho, hb, hm⟩ := he
    simp only at hw
    subst hw
    cases srv2 with
    | some _ => exact hsrv.elim
    | none =>
      have hq := same_start (A1 := A1) (A2 := A2) cfg senv senv2 hd ho hb hm (w.withEnv env [])
      rw [h] at hq
      cases h2 : Server.create cfg senv2 (w.withEnv env []) with | mk o w2
      rw [h2] at hq
      obtain ⟨hw, hq⟩ := hq
      have hw : w' = w2 := hw
      subst hw
      cases o with
      | ok x => exact ⟨_, .started w env cfg senv2 x w' hdir (by rw [← ho]; exact hord) h2, rfl, hq⟩
      | err e => exact hq.elim
      | crash => exact hq.elim
  | startFailed w env cfg senv o w' hdir hord h hne =>
    cases e2 <;> simp only [EvAlike] at he
    rename_i env2 cfg2 senv2
    obtain ⟨rfl, rfl, hd, ho, hb, hm⟩ := he
    simp only at hw
    subst hw
    cases srv2 with
    | some _ => exact hsrv.elim
    | none =>
      have hq := same_start (A1 := A1) (A2 := A2) cfg senv senv2 hd ho hb hm (w.withEnv env [])
      rw [h] at hq
      cases h2 : Server.create cfg senv2 (w.withEnv env []) with | mk o2 w2
      rw [h2] at hq
      obtain ⟨hw, hq⟩ := hq
      have hw : w' = w2 := hw
      subst hw
      refine ⟨_, .startFailed w env cfg senv2 o2 w' hdir (by rw [← ho]; exact hord) h2 ?_, rfl, trivial⟩
      rintro x rfl
      cases o with
      | ok y => exact hne y rfl
      | err e => exact hq.elim
      | crash => exact hq.elim
  | packet w s env dg src rd tLog s' r w' h =>
    cases e2 <;> simp only [EvAlike] at he
    obtain ⟨rfl, rfl, rfl, rfl, rfl⟩ := he
    simp only at hw
    subst hw
    cases srv2 with
    | none => exact hsrv.elim
    | some x =>
      have hq := same_datagram (A1 := A1) (A2 := A2) hsrv dg src rd tLog (w.withEnv env (dg.take MSG_SIZE))
      rw [h] at hq
      cases h2 : x.handleDatagram A2 dg src rd tLog (w.withEnv env (dg.take MSG_SIZE)) with | mk o2 w2
      rw [h2] at hq
      obtain ⟨hw, hq⟩ := hq
      have hw : w' = w2 := hw
      subst hw
      cases o2 with
      | ok y => exact ⟨_, .packet w x env dg src rd tLog y.1 y.2 w' h2, rfl, hq.1⟩
      | err e => exact hq.elim
      | crash => exact hq.elim
  | packetCrash w s env dg src rd tLog w' h =>
    cases e2 <;> simp only [EvAlike] at he
    obtain ⟨rfl, rfl, rfl, rfl, rfl⟩ := he
    simp only at hw
    subst hw
    cases srv2 with
    | none => exact hsrv.elim
    | some x =>
      have hq := same_datagram (A1 := A1) (A2 := A2) hsrv dg src rd tLog (w.withEnv env (dg.take MSG_SIZE))
      rw [h] at hq
      cases h2 : x.handleDatagram A2 dg src rd tLog (w.withEnv env (dg.take MSG_SIZE)) with | mk o2 w2
      rw [h2] at hq
      obtain ⟨hw, hq⟩ := hq
      have hw : w' = w2 := hw
      subst hw
      cases o2 with
      | ok y => exact hq.elim
      | err e => exact hq.elim
      | crash => exact ⟨_, .packetCrash w x env dg src rd tLog w' h2, rfl, trivial⟩
  | kill w s =>
    cases e2 <;> simp only [EvAlike] at he
    simp only at hw
    subst hw
    exact ⟨_, .kill w srv2, rfl, trivial⟩
  | power w s w' h =>
    cases e2 <;> simp only [EvAlike] at he
    simp only at hw
    subst hw
    exact ⟨_, .power w srv2 w' h, rfl, trivial⟩
  | others w w' s hfs hpend hlog =>
    cases e2 <;> simp only [EvAlike] at he
    simp only at hw
    subst hw
    exact ⟨_, .others w w' srv2 hfs hpend hlog, rfl, hsrv⟩

/-- **C90c.** The same for the server, over whole histories (starts with changing key directories, arbitrary datagrams, failing calls, crashes, power losses): of two histories that differ in
the keys only, with keys that have the same ids and open alike, nobody can tell which is which: files, messages to the commander and everything else on record are the same, and so is
whether the server runs. -/
theorem C90_server (A1 A2 : Aead) (dir : Path) (w : World) (evs1 evs2 : List Ev) (s1 : Sys) (h : Run A1 dir ⟨w, none⟩ evs1 s1) (he : Pointwise (EvAlike A1 A2) evs1 evs2) :
    ∃ s2, Run A2 dir ⟨w, none⟩ evs2 s2 ∧ s1.w = s2.w ∧ s1.srv.isSome = s2.srv.isSome := by
  have main : ∀ s0, s0 = (⟨w, none⟩ : Sys) → ∀ evs1 s1, Run A1 dir s0 evs1 s1 → ∀ evs2, Pointwise (EvAlike A1 A2) evs1 evs2 → ∃ s2, Run A2 dir ⟨w, none⟩ evs2 s2 ∧ SysAlike A1 A2 s1 s2 := by
    intro s0 h0 evs1 s1 h
    induction h with
    | nil =>
      intro evs2 he
      cases he
      subst h0
      exact ⟨_, .nil _, rfl, trivial⟩
    | snoc hr hs ih =>
      intro evs2 he
      obtain ⟨bs, b, rfl, h1, h2⟩ := pointwise_snoc he
      obtain ⟨s2, hr2, hsys⟩ := ih bs h1
      obtain ⟨s2', hs2, hsys'⟩ := step_alike hs hsys h2
      exact ⟨s2', .snoc hr2 hs2, hsys'⟩
  obtain ⟨s2, h1, h2, h3⟩ := main _ rfl evs1 s1 h evs2 he
  refine ⟨s2, h1, h2, ?_⟩
  cases hx : s1.srv <;> cases hy : s2.srv <;> simp only [hx, hy] at h3 ⊢
  · rfl

/-- **C90d.** The same for the client, over whole histories (sends with changing keys, reseeds, failing calls, crashes, power losses): of two histories that differ in the keys only, with keys
that have the same ids and seal alike, nobody can tell which is which: files, datagrams and everything else on record are the same. -/
theorem C90_client (A1 A2 : Aead) (hash : List Char → U64) (dir : Path) (w w' : World) (evs1 evs2 : List CEv) (h : CRun A1 hash dir w evs1 w') (he : Pointwise (CEvAlike A1 A2) evs1 evs2) :
    CRun A2 hash dir w evs2 w' := by
  induction h generalizing evs2 with
  | nil =>
    cases he
    exact .nil _
  | snoc hr hs ih =>
    obtain ⟨bs, b, rfl, h1, h2⟩ := pointwise_snoc he
    refine .snoc (ih bs h1) ?_
    cases hs with
    | send env held cmd senv o _ h =>
      cases b <;> simp only [CEvAlike] at h2
      rename_i senv'
      obtain ⟨rfl, rfl, rfl, hk, hres, hrnd⟩ := h2
      obtain ⟨t1, r1, n1⟩ := senv
      obtain ⟨t2, r2, n2⟩ := senv'
      simp only at hk hres hrnd
      subst hres hrnd
      refine .send _ _ _ _ _ o _ ?_
      rw [← h]
      cases t1 <;> cases t2 <;> simp only [KeyFileAlike] at hk
      · exact (runSend_no_key A1 A2 hash dir _ _ _ _ _).symm
      · exact (C90_send A1 A2 hash dir _ _ ⟨none, r1, n1⟩ _ _ hk _).symm
    | reseed env held o _ h =>
      cases b <;> simp only [CEvAlike] at h2
      obtain ⟨rfl, rfl⟩ := h2
      exact .reseed _ _ _ o _ h
    | power _ h =>
      cases b <;> simp only [CEvAlike] at h2
      exact .power _ _ h
    | others _ hfs hpend hlog =>
      cases b <;> simp only [CEvAlike] at h2
      exact .others _ _ hfs hpend hlog

/-! ## Examples -/

/-- The example start with another key in place of the key. -/
def exBlankStart (t : U128) : Ev :=
  .start ⟨[], [some t, some t, some t]⟩ { exServer.cfg with maxPerIp := 10 } ⟨some [⟨"a.key".toList, true, some (blankKeyText exKey.id)⟩, ⟨"readme".toList, true, none⟩], id, true, 0⟩

/-- Non-vacuity of C90c: in a start, a valid datagram, a replay and a restart the key is replaced by a blank one and a box that opens what is sealed under the key. -/
example : Pointwise (EvAlike toyAead (sealingBox toyAead exKey.key)) [exStart 1000 [], exPacket 5000 1100 [], exPacket 5000 1200 [], .kill, exStart 2000 []]
    [exBlankStart 1000, exPacket 5000 1100 [], exPacket 5000 1200 [], .kill, exBlankStart 2000] := by
  have hk : EntryAlike toyAead (sealingBox toyAead exKey.key) ⟨"a.key".toList, true, some ('\n' :: exKeyText)⟩ ⟨"a.key".toList, true, some (blankKeyText exKey.id)⟩ := by
    refine ⟨rfl, rfl, ?_⟩
    have h1 : CryptoHandler.create ('\n' :: exKeyText) = .ok exKey := by decide +kernel
    have h2 : CryptoHandler.create (blankKeyText exKey.id) = .ok ⟨List.replicate 32 0, exKey.id⟩ := by decide +kernel
    simp only [OpenAlike, h1, h2]
    exact ⟨trivial, fun _ _ _ => rfl⟩
  have hs : ∀ t, EvAlike toyAead (sealingBox toyAead exKey.key) (exStart t []) (exBlankStart t) := fun t => ⟨rfl, rfl, .cons hk (.cons ⟨rfl, rfl, trivial⟩ .nil), rfl, rfl, rfl⟩
  have hp : ∀ n, EvAlike toyAead (sealingBox toyAead exKey.key) (exPacket 5000 n []) (exPacket 5000 n []) := fun n => ⟨rfl, rfl, rfl, rfl, rfl⟩
  exact .cons (hs 1000) (.cons (hp 1100) (.cons (hp 1200) (.cons trivial (.cons (hs 2000) .nil))))

/-- Non-vacuity of C90a and C90b: the key text of the examples is a key. -/
example : CryptoHandler.create (trim exKeyText) = .ok exKey := by decide +kernel

/-- Non-vacuity of C90d: in a history with a send, a reseed and a crash the key is replaced by a blank one and a box that seals under the key. -/
example (cmd : SendCmd) (senv : SendEnv) : Pointwise (CEvAlike toyAead (sealingBox toyAead exKey.key))
    [.send ⟨[], [some 5]⟩ false cmd { senv with keyText := some exKeyText }, .reseed ⟨[], [some 7]⟩ false, .send ⟨[.ok, .crash 0], [some 9]⟩ false cmd { senv with keyText := some exKeyText }]
    [.send ⟨[], [some 5]⟩ false cmd { senv with keyText := some (blankKeyText exKey.id) }, .reseed ⟨[], [some 7]⟩ false,
      .send ⟨[.ok, .crash 0], [some 9]⟩ false cmd { senv with keyText := some (blankKeyText exKey.id) }] := by
  have hk : SealAlike toyAead (trim exKeyText) (sealingBox toyAead exKey.key) (trim (blankKeyText exKey.id)) := by
    have h1 : CryptoHandler.create (trim exKeyText) = .ok exKey := by decide +kernel
    simp only [SealAlike, h1, blankKeyText_create exKey.id rfl]
    exact ⟨trivial, fun _ _ => rfl⟩
  exact .cons ⟨rfl, rfl, rfl, hk, rfl, rfl⟩ (.cons ⟨rfl, rfl⟩ (.cons ⟨rfl, rfl, rfl, hk, rfl, rfl⟩ .nil))

end Ruroco
