import Verif.Spec.Units
import Verif.Props.Installation
import Verif.Props.TwoServers
import Verif.Props.CommanderEffects
import Verif.Lemmas.Ui
import Verif.Lemmas.IpText

/-! # C92: the shipped units and what the programs do -/

namespace Ruroco

open Spec UnitFile

/-! ## Paths -/

theorem splitChars_join {p : Char → Bool} (t : List Char) {s : Char} (hs : p s = true) (rest : List Char) : splitChars p (t ++ s :: rest) = splitChars p t ++ splitChars p rest := by
  induction t with
  | nil => simp [splitChars, hs]
  | cons c cs ih =>
    rw [List.cons_append]
    by_cases hc : p c = true
    · simp [splitChars, hc, ih]
    · simp only [splitChars, hc, ih]
      cases hsp : splitChars p cs with
      | nil => exact absurd hsp (splitChars_ne_nil p cs)
      | cons a b => simp

theorem walk_append (up xs ys : List (List Char)) : walk up (xs ++ ys) = walk (walk up xs).reverse ys := by
  induction xs generalizing up with
  | nil => simp [walk]
  | cons c cs ih =>
    simp only [List.cons_append, walk]
    split
    · exact ih _
    · split <;> exact ih _

/-- A name with at least three characters and without `/` is one more component. -/
theorem components_name (dir name : List Char) (hn : '/' ∉ name) (hl : 2 < name.length) : components (dir ++ '/' :: name) = components dir ++ [name] := by
  unfold components
  have h1 : name ≠ [] := by rintro rfl; simp at hl
  have h2 : name ≠ ".".toList := by rintro rfl; simp at hl
  have h3 : name ≠ "..".toList := by rintro rfl; simp at hl
  have e : splitChars (· == '/') name = [name] := splitChars_free (fun c hc => by
    have : c ≠ '/' := fun h => hn (h ▸ hc)
    simpa using this)
  rw [splitChars_join dir (by decide) name, walk_append, e]
  rw [show walk (walk [] (splitChars (· == '/') dir)).reverse [name] = walk (name :: (walk [] (splitChars (· == '/') dir)).reverse) [] from by
    rw [walk.eq_2, if_neg (by rintro (h | h) <;> contradiction), if_neg h3]]
  rw [walk.eq_1, List.reverse_cons, List.reverse_reverse]

theorem digits_noSlash (n : Nat) : '/' ∉ (toString n).toList := by
  rw [show (toString n).toList = Nat.toDigits 10 n from by simp [toString, Nat.repr]]
  intro h
  obtain ⟨d, hd, h⟩ := isDigit_of_mem_show (radix := 10) (by omega) (by omega) _ h
  have : ∀ d < 10, '/' ≠ Nat.digitChar d := by decide
  exact this d hd h

/-- The name of the state file or of a temporary sibling. -/
def StateName (name : List Char) : Prop := '/' ∉ name ∧ 2 < name.length ∧ name.head? = some 'b'

theorem stateFile_name {dir q : Path} (h : q = blocklistPath dir ∨ IsTmpOf (blocklistPath dir) q) : ∃ name, q = dir ++ '/' :: name ∧ StateName name := by
  rcases h with rfl | ⟨n, rfl⟩
  · exact ⟨"blocklist.msgpck".toList, rfl, by unfold StateName; decide⟩
  · refine ⟨"blocklist.msgpck".toList ++ ('.' :: (toString n.toNat).toList ++ ".tmp".toList), ?_, ?_, ?_, rfl⟩
    · unfold tmpPath blocklistPath
      rw [List.append_assoc]
      rfl
    · have h1 := digits_noSlash n.toNat
      have h2 : '/' ∉ "blocklist.msgpck".toList := by decide
      have h3 : '/' ∉ ".tmp".toList := by decide
      simp only [List.mem_append, List.mem_cons, not_or]
      exact ⟨h2, ⟨by decide, h1⟩, h3⟩
    · have : 2 < "blocklist.msgpck".toList.length := by decide
      rw [List.length_append]
      omega

theorem writable_below {u : UnitFile} {dir name : List Char} (hw : u.writable dir = true) (hn : '/' ∉ name) (hl : 2 < name.length) : u.writable (dir ++ '/' :: name) = true := by
  unfold writable at hw ⊢
  simp only [Bool.or_eq_true, List.any_eq_true, List.isPrefixOf_iff_prefix] at hw ⊢
  rcases hw with hw | ⟨d, h1, h2⟩
  · exact .inl hw
  · exact .inr ⟨d, h1, by rw [components_name dir name hn hl]; exact h2.trans (List.prefix_append _ _)⟩

theorem serverUnit_strict : serverUnit.isSet "ProtectSystem" "strict" = true := by decide +kernel

theorem serverUnit_dirs : serverUnit.writableDirs = ["/var/lib/ruroco".toList, "/tmp".toList, "/var/tmp".toList] := by decide +kernel

/-- A state file is not writable unless its directory is. -/
theorem not_writable_below {dir name : List Char} (hw : serverUnit.writable dir = false) (hn : StateName name) : serverUnit.writable (dir ++ '/' :: name) = false := by
  have e : ∀ p, serverUnit.writable p = ["/var/lib/ruroco".toList, "/tmp".toList, "/var/tmp".toList].any (fun d => (components d).isPrefixOf (components p)) := by
    intro p
    unfold writable
    rw [serverUnit_strict, serverUnit_dirs]
    rfl
  rw [e] at hw ⊢
  rw [List.any_eq_false] at hw ⊢
  intro d hd h
  rw [List.isPrefixOf_iff_prefix, components_name dir name hn.1 hn.2.1, List.prefix_concat_iff] at h
  rcases h with h | h
  · have last : ∀ d ∈ ["/var/lib/ruroco".toList, "/tmp".toList, "/var/tmp".toList], ∀ x, (components d).getLast? = some x → x.head? ≠ some 'b' := by decide +kernel
    exact last d hd name (by rw [h]; simp) hn.2.2
  · exact hw d hd (by rw [List.isPrefixOf_iff_prefix]; exact h)

/-! ## The server stays inside -/

section

variable {P : Event → Prop}

/-- What saving the replay state does. -/
structure SaveOps (P : Event → Prop) (p : Path) : Prop where
  tmp : ∀ t op, op = .openTrunc ∨ op = .write ∨ op = .fsync → P (.file op (tmpPath p t))
  file : ∀ op, op = .rename ∨ op = .fsyncDir ∨ op = .stat ∨ op = .read → P (.file op p)
  notes : P (.statFailed p) ∧ P (.dirSyncFailed p)

theorem logs_of_within {F : Path → Prop} {m : Act α} (h : Always (Within F P) m) : Always (Logs P) m := fun w => (h w).1

theorem logs_save {bl : Blocklist} (h : SaveOps P bl.path) : Always (Logs P) bl.save := by
  have hR := logs_pre P
  unfold Blocklist.save writeAtomic writeAtomicWithMode
  refine Always.bind hR (Always.ofExcept hR _) (fun _ => ?_)
  refine Always.bind hR logs_nowNanos (fun t => ?_)
  refine Always.bind hR (logs_openTrunc (h.tmp t _ (.inl rfl))) (fun _ => ?_)
  refine Always.bind hR (logs_of_within (F := fun _ => True) (within_writeAll trivial (h.tmp t _ (.inr (.inl rfl))))) (fun _ => ?_)
  refine Always.bind hR (logs_of_within (F := fun _ => True) (within_fsync trivial (h.tmp t _ (.inr (.inr rfl))))) (fun _ => ?_)
  refine Always.bind hR (logs_of_within (F := fun _ => True) (within_rename trivial trivial (h.file _ (.inl rfl)))) (fun _ => ?_)
  exact logs_of_within (F := fun _ => True) (within_fsyncDir (h.file _ (.inr (.inl rfl))) h.notes.2)

theorem logs_pathExists {p : Path} (h1 : P (.file .stat p)) (h2 : P (.statFailed p)) : Always (Logs P) (pathExists p) := by
  have hR := logs_pre P
  unfold pathExists
  refine Always.bind hR (Always.attempt (logs_call h1 (fun _ => rfl))) (fun r => ?_)
  cases r with
  | ok _ => exact Always.bind hR (Always.peek hR p) (fun _ => Always.pure hR _)
  | error _ => exact Always.bind hR (logs_note h2) (fun _ => Always.pure hR _)

theorem seed_path (handlers : Handlers) (floor : U128) (bl : Blocklist) : (handlers.foldl (fun b h => b.seedIfAbsent h.1 floor) bl).path = bl.path := by
  induction handlers generalizing bl with
  | nil => rfl
  | cons h rest ih =>
    rw [List.foldl_cons, ih]
    unfold Blocklist.seedIfAbsent
    split <;> rfl

theorem gives_blCreate {dir : Path} {order : BlMap → BlMap} : Gives (fun b : Blocklist => b.path = blocklistPath dir) (Blocklist.create dir order) := by
  have fin : ∀ {m : Act Blocklist}, Gives (fun b : Blocklist => b.path = blocklistPath dir) m → Gives (fun b : Blocklist => b.path = blocklistPath dir) (m >>= fun b => b.save >>= fun _ => pure b) :=
    fun h => Gives.bind_of h (fun b hb => Gives.bind (fun _ => Gives.pure hb))
  unfold Blocklist.create
  simp only
  refine Gives.bind (fun b => ?_)
  split
  · refine Gives.bind (fun bytes => ?_)
    split
    · exact fin (Gives.pure rfl)
    · exact fin Gives.throw
  · exact fin (Gives.pure rfl)

theorem logs_blCreate {dir : Path} {order : BlMap → BlMap} (h : SaveOps P (blocklistPath dir)) : Always (Logs P) (Blocklist.create dir order) := by
  have hR := logs_pre P
  have rest : ∀ {m : Act Blocklist}, Always (Logs P) m → Gives (fun b : Blocklist => b.path = blocklistPath dir) m → Always (Logs P) (m >>= fun b => b.save >>= fun _ => pure b) :=
    fun hm hg => always_bind_of hR hm hg (fun b hb => Always.bind hR (logs_save (by rw [hb]; exact h)) (fun _ => Always.pure hR _))
  unfold Blocklist.create
  simp only
  refine Always.bind hR (logs_pathExists (h.file _ (.inr (.inr (.inl rfl)))) h.notes.1) (fun b => ?_)
  split
  · refine Always.bind hR (logs_readFile (h.file _ (.inr (.inr (.inr rfl))))) (fun bytes => ?_)
    split
    · exact rest (Always.pure hR _) (Gives.pure rfl)
    · exact rest (Always.throw hR _) Gives.throw
  · exact rest (Always.pure hR _) (Gives.pure rfl)

/-- Starting. -/
theorem logs_start {cfg : ServerCfg} {senv : StartEnv} (h : SaveOps P (blocklistPath cfg.blDir)) : Always (Logs P) (Server.create cfg senv) := by
  have hR := logs_pre P
  unfold Server.create
  refine Always.bind hR (Always.ofExcept hR _) (fun handlers => ?_)
  refine always_bind_of hR (logs_blCreate h) gives_blCreate (fun bl hbl => ?_)
  refine Always.bind hR logs_nowNanos (fun floor => ?_)
  refine Always.bind hR (logs_save (by rw [seed_path, hbl]; exact h)) (fun _ => ?_)
  split
  · exact Always.pure hR _
  · exact Always.throw hR _

theorem logs_writeToSocket {c : U128} {d : CommanderData} (h1 : P .connect) (h2 : ∀ dg bs, P (.forward dg c bs)) : Always (Logs P) (writeToSocket c d) := by
  have hR := logs_pre P
  unfold writeToSocket
  refine Always.bind hR (logs_call h1 (fun _ => rfl)) (fun _ => Always.bind hR (logs_call h1 (fun _ => rfl)) (fun _ => ?_))
  intro w
  simp only
  split <;> exact ⟨[_], rfl, by simp [h2]⟩

theorem logs_validateAndSend {s : Server} {k p : List Byte} {src : Ip} (h : SaveOps P s.bl.path) (h1 : P .connect) (h2 : ∀ dg c bs, P (.forward dg c bs)) :
    Always (Logs P) (s.validateAndSend k p src) := by
  have hR := logs_pre P
  unfold Server.validateAndSend
  refine Always.bind hR (Always.attempt logs_nowNanos) (fun now => ?_)
  split
  · exact Always.pure hR _
  · simp only
    split
    · exact Always.pure hR _
    · split
      · exact Always.pure hR _
      split
      · exact Always.pure hR _
      split
      · exact Always.pure hR _
      split
      · exact Always.pure hR _
      refine Always.bind hR ?_ (fun x => ?_)
      · unfold Server.updateBlockList
        simp only
        refine Always.bind hR (Always.attempt (logs_save h)) (fun r => ?_)
        split <;> exact Always.pure hR _
      · obtain ⟨s', r⟩ := x
        simp only
        split
        · exact Always.pure hR _
        · unfold sendCommand
          exact Always.bind hR (Always.bind hR (Always.attempt (logs_writeToSocket h1 (fun dg bs => h2 dg _ bs))) (fun _ => Always.pure hR _)) (fun _ => Always.pure hR _)

/-- One datagram. -/
theorem logs_handle {A : Aead} {s : Server} {dg : List Byte} {src : Ip} {rd : Readings} {t : Nat} (h : SaveOps P s.bl.path) (h1 : P .connect) (h2 : ∀ dg c bs, P (.forward dg c bs)) :
    Always (Logs P) (s.handleDatagram A dg src rd t) := by
  have hR := logs_pre P
  unfold Server.handleDatagram
  refine Always.bind hR ?_ (fun x => ?_)
  · unfold Server.iteration
    simp only
    split
    · exact Always.pure hR _
    · split
      · exact Always.pure hR _
      · split
        · exact Always.pure hR _
        · exact logs_validateAndSend h h1 h2
  · obtain ⟨s', r⟩ := x
    simp only
    split <;> exact Always.pure hR _

end

theorem serverUnit_calls (op : FileOp) (h : op ≠ .chown) : serverUnit.callAllowed op = true := by
  cases op <;> first | exact absurd rfl h | decide +kernel

theorem serverUnit_unix : serverUnit.family "AF_UNIX" = true := by decide +kernel

theorem saveOps_permitted {dir : Path} (hw : serverUnit.writable dir = true) : SaveOps (Permitted serverUnit) (blocklistPath dir) where
  tmp := by
    intro t op hop
    obtain ⟨name, h1, h2⟩ := stateFile_name (.inr ⟨t, rfl⟩)
    refine .change _ _ (serverUnit_calls _ ?_) ?_ (by rw [h1]; exact writable_below hw h2.1 h2.2.1)
    · rcases hop with rfl | rfl | rfl <;> decide
    · rcases hop with rfl | rfl | rfl <;> nofun
  file := by
    intro op hop
    obtain ⟨name, h1, h2⟩ := stateFile_name (dir := dir) (.inl rfl)
    refine .change _ _ (serverUnit_calls _ ?_) ?_ (by rw [h1]; exact writable_below hw h2.1 h2.2.1)
    · rcases hop with rfl | rfl | rfl | rfl <;> decide
    · rcases hop with rfl | rfl | rfl | rfl <;> nofun
  notes := ⟨.statFailed _, .dirSyncFailed _⟩

/-- **C92**, the server inside its sandbox: if its state directory is one that the shipped unit leaves writable, then everything the server does in any history - any datagrams, failures, restarts - is
permitted by the unit. -/
theorem C92_server_permitted (A : Aead) (dir : Path) (hdir : serverUnit.writable dir = true) (w : World) (evs : List Ev) (s : Sys) (hrun : Run A dir ⟨w, none⟩ evs s) :
    ∃ l, s.w.log = w.log ++ l ∧ ∀ e ∈ l, Permitted serverUnit e := by
  have hs := saveOps_permitted hdir
  have step : ∀ {s2 s3 : Sys} {e : Ev}, Step A dir s2 e s3 → (∀ srv, s2.srv = some srv → Live false dir s2.w srv) → Logs (Permitted serverUnit) s2.w s3.w := by
    intro s2 s3 e hst hl
    have start : ∀ {w w' : World} {env : Env} {cfg : ServerCfg} {senv : StartEnv} {o : Out Server}, cfg.blDir = dir → Server.create cfg senv (w.withEnv env []) = (o, w') → Logs (Permitted serverUnit) w w' := by
      intro w w' env cfg senv o hd h
      have := logs_start (P := Permitted serverUnit) (cfg := cfg) (senv := senv) (by rw [hd]; exact hs) (w.withEnv env [])
      rw [h] at this
      exact this
    have packet : ∀ {w w' : World} {srv : Server} {env : Env} {dg : List Byte} {src : Ip} {rd : Readings} {t : Nat} {o : Out (Server × Except Err Unit)}, Live false dir w srv →
        srv.handleDatagram A dg src rd t (w.withEnv env (dg.take MSG_SIZE)) = (o, w') → Logs (Permitted serverUnit) w w' := by
      intro w w' srv env dg src rd t o hlive h
      have := logs_handle (P := Permitted serverUnit) (A := A) (s := srv) (dg := dg) (src := src) (rd := rd) (t := t) (by rw [hlive.path]; exact hs) (.connect serverUnit_unix)
        (fun dg c bs => .forward serverUnit_unix dg c bs) (w.withEnv env (dg.take MSG_SIZE))
      rw [h] at this
      exact this
    have same : s3.w.log = s2.w.log → Logs (Permitted serverUnit) s2.w s3.w := fun h => ⟨[], by rw [h]; simp, nofun⟩
    cases hst with
    | started w env cfg senv s w' hdir hord h => exact start hdir h
    | startFailed w env cfg senv o w' hdir hord h hne => exact start hdir h
    | packet w s env dg src rd tLog s' r w' h => exact packet (hl _ rfl) h
    | packetCrash w s env dg src rd tLog w' h => exact packet (hl _ rfl) h
    | kill w s => exact same rfl
    | power w s w' h => exact same h.log
    | others w w' s hfs hpend hlog => exact same hlog
  have main : ∀ {evs : List Ev} {s0 s : Sys}, Run A dir s0 evs s → (∀ srv, s0.srv = some srv → Live false dir s0.w srv) → Logs (Permitted serverUnit) s0.w s.w := by
    intro evs s0 s hrun h0
    induction hrun with
    | nil => exact (logs_pre _).refl _
    | snoc hr hst ih => exact (logs_pre _).trans ih (step hst (live_run_false hr h0))
  exact main hrun (fun srv h => by cases h)

/-! ## Outside, it never starts -/

theorem fileCalls_append (a b : List Event) : fileCalls (a ++ b) = fileCalls a + fileCalls b := by
  induction a with
  | nil => simp [fileCalls]
  | cons e a ih => cases e <;> simp only [List.cons_append, fileCalls, ih] <;> omega

/-- Each call on a file in the new part of the trace has taken one outcome. -/
def Metered (w w' : World) : Prop := ∃ l, w'.log = w.log ++ l ∧ w'.oracle = w.oracle.drop (fileCalls l)

theorem metered_pre : Pre Metered where
  refl w := ⟨[], by simp, by simp [fileCalls]⟩
  trans := by
    rintro a b c ⟨l, h1, h2⟩ ⟨l', h3, h4⟩
    exact ⟨l ++ l', by rw [h3, h1, List.append_assoc], by rw [h4, h2, List.drop_drop, fileCalls_append]⟩

theorem metered_look (op : FileOp) (p : Path) : Always Metered (atomicCall (.file op p) id) := by
  intro w
  unfold atomicCall syscall
  rcases h : w.oracle with _ | ⟨c, o⟩
  · exact ⟨[.file op p], rfl, by simp [h]⟩
  · cases c with
    | ok => exact ⟨[.file op p], rfl, by simp [fileCalls, h]⟩
    | err k => exact ⟨[.file op p], rfl, by simp [fileCalls, h]⟩
    | crash k => exact ⟨[.file op p], by simp, by simp [fileCalls, h]⟩

theorem metered_pathExists (p : Path) : Always Metered (pathExists p) := by
  unfold pathExists
  refine Always.bind metered_pre (Always.attempt (metered_look _ _)) (fun r => ?_)
  cases r with
  | ok _ => exact Always.bind metered_pre (Always.peek metered_pre p) (fun _ => Always.pure metered_pre _)
  | error _ => exact Always.bind metered_pre (Always.note (fun w => ⟨[_], rfl, by simp [fileCalls]⟩)) (fun _ => Always.pure metered_pre _)

theorem metered_readFile (p : Path) : Always Metered (readFile p) := by
  unfold readFile
  refine Always.bind metered_pre (metered_look _ _) (fun _ => Always.bind metered_pre (Always.peek metered_pre p) (fun f => ?_))
  cases f with
  | none => exact Always.throw metered_pre _
  | some f => exact Always.pure metered_pre _

theorem metered_nowNanos : Always Metered nowNanos := Always.nowNanos (fun w c => ⟨[], by simp, by simp [fileCalls]⟩)

/-- Success needs a call that is not permitted. -/
def Needs (u : UnitFile) (m : Act α) : Prop := ∀ w a w', m w = (.ok a, w') → ¬ Enforced u w w'

theorem Needs.throw {u : UnitFile} {e : Err} : Needs u (Act.throw e : Act α) := fun w a w' h => by cases h

/-- A call that is not permitted comes later. -/
theorem Needs.after {u : UnitFile} {m : Act α} {f : α → Act β} (hm : Always Metered m) (hf : ∀ a, Needs u (f a)) : Needs u (m >>= f) := by
  intro w b w' h hen
  cases h1 : m w with
  | mk o w1 =>
    have hc := hm w
    rw [h1] at hc
    obtain ⟨l, hl, ho⟩ := hc
    have h' : Act.bind m f w = (.ok b, w') := h
    unfold Act.bind at h'
    rw [h1] at h'
    cases o with
    | err e => cases h'
    | crash => cases h'
    | ok a =>
      refine hf a w1 b w' h' ?_
      intro l₁ op q l₂ hlog hn
      have := hen (l ++ l₁) op q l₂ (by rw [hlog, hl]; simp) hn
      rw [fileCalls_append] at this
      rw [ho, List.getElem?_drop]
      exact this

/-- The call that is not permitted comes first. -/
theorem Needs.before {u : UnitFile} {m : Act α} {f : α → Act β} (hm : Needs u m) (hf : ∀ a, Always (Logs (fun _ => True)) (f a)) : Needs u (m >>= f) := by
  intro w b w' h hen
  cases h1 : m w with
  | mk o w1 =>
    have h' : Act.bind m f w = (.ok b, w') := h
    unfold Act.bind at h'
    rw [h1] at h'
    cases o with
    | err e => cases h'
    | crash => cases h'
    | ok a =>
      refine hm w a w1 h1 ?_
      obtain ⟨l, hl, _⟩ := hf a w1
      simp only at h'
      rw [h'] at hl
      intro l₁ op q l₂ hlog hn
      exact hen l₁ op q (l₂ ++ l) (by rw [hl, hlog]; simp) hn

theorem needs_openTrunc {u : UnitFile} {p : Path} (h : ¬ Permitted u (.file .openTrunc p)) : Needs u (openTrunc p) := by
  intro w a w' h1 hen
  unfold openTrunc atomicCall syscall at h1
  have key : w'.log = w.log ++ [.file .openTrunc p] → (∃ c, w.oracle[0]? = some c ∧ c ≠ .ok) := fun hl => hen [] .openTrunc p [] (by rw [hl]; simp) h
  rcases ho : w.oracle with _ | ⟨c, o⟩
  · rw [ho] at h1
    cases h1
    obtain ⟨c, hc, _⟩ := key rfl
    rw [ho] at hc
    cases hc
  · rw [ho] at h1
    cases c with
    | ok =>
      cases h1
      obtain ⟨c, hc, hne⟩ := key rfl
      rw [ho] at hc
      cases hc
      exact hne rfl
    | err k => cases h1
    | crash k => cases h1

theorem saveOps_any (p : Path) : SaveOps (fun _ => True) p := ⟨fun _ _ _ => trivial, fun _ _ => trivial, trivial, trivial⟩

theorem not_permitted_tmp {dir : Path} (hw : serverUnit.writable dir = false) (t : U128) : ¬ Permitted serverUnit (.file .openTrunc (tmpPath (blocklistPath dir) t)) := by
  intro h
  obtain ⟨name, h1, h2⟩ := stateFile_name (dir := dir) (.inr ⟨t, rfl⟩)
  cases h with
  | look _ _ h _ => rcases h with h | h <;> cases h
  | change _ _ _ _ h =>
    rw [h1, not_writable_below hw h2] at h
    cases h

theorem needs_save {dir : Path} (hw : serverUnit.writable dir = false) {bl : Blocklist} (hp : bl.path = blocklistPath dir) : Needs serverUnit bl.save := by
  have hR := logs_pre (fun _ => True)
  unfold Blocklist.save writeAtomic writeAtomicWithMode
  refine Needs.after (Always.ofExcept metered_pre _) (fun _ => Needs.after metered_nowNanos (fun t => ?_))
  refine Needs.before (needs_openTrunc (by rw [hp]; exact not_permitted_tmp hw t)) (fun _ => ?_)
  refine Always.bind hR (logs_of_within (F := fun _ => True) (within_writeAll trivial trivial)) (fun _ => ?_)
  refine Always.bind hR (logs_of_within (F := fun _ => True) (within_fsync trivial trivial)) (fun _ => ?_)
  refine Always.bind hR (logs_of_within (F := fun _ => True) (within_rename trivial trivial trivial)) (fun _ => ?_)
  exact logs_of_within (F := fun _ => True) (within_fsyncDir trivial trivial)

theorem needs_blCreate {dir : Path} (hw : serverUnit.writable dir = false) {order : BlMap → BlMap} : Needs serverUnit (Blocklist.create dir order) := by
  have fin : ∀ map, Needs serverUnit ((pure (⟨map, blocklistPath dir, order⟩ : Blocklist) : Act Blocklist) >>= fun b => b.save >>= fun _ => pure b) := by
    intro map
    exact Needs.before (m := (⟨map, blocklistPath dir, order⟩ : Blocklist).save) (needs_save hw rfl) (fun _ => Always.pure (logs_pre _) _)
  unfold Blocklist.create
  simp only
  refine Needs.after (metered_pathExists _) (fun b => ?_)
  split
  · refine Needs.after (metered_readFile _) (fun bytes => ?_)
    split
    · exact fin _
    · exact Needs.throw
  · exact fin _

/-- **C92**, the other state directories: if the state directory of the settings is not one that the unit leaves writable (for instance because `blocklist_dir` is left out, so that it is `config_dir`),
then no start of the server inside the sandbox succeeds, whatever is in the files. -/
theorem C92_outside_never_starts (cfg : ServerCfg) (senv : StartEnv) (hdir : serverUnit.writable cfg.blDir = false) (w w' : World) (hen : Enforced serverUnit w w') (s : Server) :
    Server.create cfg senv w ≠ (.ok s, w') := by
  intro h
  have needs : Needs serverUnit (Server.create cfg senv) := by
    have hR := logs_pre (fun _ => True)
    unfold Server.create
    refine Needs.after (Always.ofExcept metered_pre _) (fun handlers => Needs.before (needs_blCreate hdir) (fun bl => ?_))
    refine Always.bind hR logs_nowNanos (fun _ => Always.bind hR (logs_save (saveOps_any _)) (fun _ => ?_))
    split
    · exact Always.pure hR _
    · exact Always.throw hR _
  exact needs w s w' h hen

/-- **C92** The unit does not let the server bind a port itself. So the server starts only with the socket handed to it by systemd, whatever `address` says in config.toml; with a wrong or missing
`LISTEN_PID` or `LISTEN_FDS`, or with `RUROCO_LISTEN_ADDRESS`, it does not start (compare C23). -/
theorem C92_only_inherited_socket (env : SocketEnv) (pid : Nat) (address : Option (List Char)) :
    serverUnit.grants (createServerUdpSocket env pid none address) = true ↔ env.listenPid = some (showNat pid) ∧ env.listenFds = some "1".toList ∧ env.listenAddress = none := by
  have hb : serverUnit.mayBind = false := by decide +kernel
  have conf : ∀ a, serverUnit.grants (createServerUdpSocket.configured a) = false := by
    intro a
    cases a <;> exact hb
  obtain ⟨lp, lf, la⟩ := env
  unfold createServerUdpSocket
  cases la with
  | some a => cases lp <;> cases lf <;> simp [grants, hb]
  | none =>
    cases lp with
    | none => simp [conf]
    | some p =>
      cases lf with
      | none => simp [conf]
      | some f =>
        simp only
        by_cases h : p = showNat pid ∧ f = "1".toList
        · rw [if_pos h]
          simp [grants, h.1, h.2]
        · rw [if_neg h]
          have : serverUnit.grants (if f ≠ "1".toList then .error .config else if p ≠ showNat pid then .error .config else createServerUdpSocket.configured address) = false := by
            split
            · rfl
            · split
              · rfl
              · exact conf _
          rw [this]
          constructor
          · intro h; cases h
          · rintro ⟨h1, h2, _⟩
            cases h1
            cases h2
            exact absurd ⟨rfl, rfl⟩ h

/-- **C92** That socket has the port that the client takes when none is given (C36). -/
theorem C92_port : socketUnit.filterMap (fun l => if l.2.1 = "ListenDatagram".toList then some l.2.2 else none) = ["[::]:".toList ++ showNat DEFAULT_PORT] := by decide +kernel

/-! ## The commander -/

theorem commanderUnit_calls (op : FileOp) : commanderUnit.callAllowed op = true := by
  cases op <;> decide +kernel

theorem commanderUnit_unix : commanderUnit.family "AF_UNIX" = true := by decide +kernel

theorem commanderUnit_writable (p : Path) : commanderUnit.writable p = true := by
  unfold writable
  rw [show commanderUnit.isSet "ProtectSystem" "strict" = false by decide +kernel]
  rfl

theorem commander_file (op : FileOp) (q : Path) : Permitted commanderUnit (.file op q) := .change op q (commanderUnit_calls op) (fun _ => commanderUnit_unix) (commanderUnit_writable q)

/-- **C92** Everything the commander does when it starts (creating the socket and giving it to the server's user) and while it serves any connections is permitted by its unit. -/
theorem C92_commander_permitted (c : Commander) (held names : Bool) (pre : Path) (conns : List Conn) (w : World) :
    Logs (Permitted commanderUnit) w (c.createListener held names w).2 ∧ Logs (Permitted commanderUnit) w (c.serve pre conns w).2 := by
  constructor
  · obtain ⟨l, h1, h2⟩ := (C87_start_confined c held names w).1
    refine ⟨l, h1, fun e he => ?_⟩
    cases h2 e he with
    | mkdir => exact commander_file _ _
    | lock op => exact commander_file _ _
    | socket op => exact commander_file _ _
    | removeFailed => exact .removeFailed _
  · obtain ⟨l, h1, h2⟩ := (C87_serving_confined c pre conns (fun _ => True) (fun _ _ _ _ _ q hq => absurd trivial hq) w).1
    refine ⟨l, h1, fun e he => ?_⟩
    cases h2 e he with
    | file op q h => exact commander_file _ _
    | removeFailed q h => exact .removeFailed _
    | spawn cmd ip h => exact .spawn _ _
    | kill => exact .kill
    | reap => exact .reap

/-! ## The shipped config.toml -/

theorem isAbsolute_resolve {env : PathEnv} {p : Path} (h : isAbsolute p = true) : resolvePath env p = p := by
  unfold resolvePath
  rw [if_pos h]

def shippedServer : ConfigServer :=
  ⟨[.v4 0x7f000001, .v6 0xdeadbeefdeadbeefdeadbeefdeadbeef], some "[::]:34020".toList, "/etc/ruroco/".toList, some "/var/lib/ruroco".toList, some "/run/ruroco".toList, 2, 100, 3600⟩

def shippedCommander : ConfigCommander := ⟨"/etc/ruroco/".toList, some "/run/ruroco".toList, "ruroco".toList, "ruroco".toList, false⟩

/-- **C92** The shipped config.toml fits the units: both programs read it; the state directory is writable for the server, the directory of the keys is not; server and commander agree on the socket, and it
is in the directory that systemd makes for the commander. All this whatever the working directory is. -/
theorem C92_shipped_configuration (penv penv' : PathEnv) (hash : List Char → U64) (commands : List (List Char × CommandValue)) :
    ∃ c d, ConfigServer.deserialize shippedConfig = .ok c ∧ ConfigCommander.deserialize shippedConfig = .ok d ∧
      serverUnit.writable (c.stateDir penv) = true ∧ serverUnit.writable (c.keyDir penv) = false ∧
      c.socketPath penv = (Commander.create d commands hash penv').socketPath ∧ (∃ r ∈ commanderUnit.words "RuntimeDirectory", c.socketPath penv = "/run/".toList ++ r ++ "/ruroco.socket".toList) := by
  refine ⟨shippedServer, shippedCommander, by decide +kernel, by decide +kernel, ?_, ?_, ?_, "ruroco".toList, by decide +kernel, ?_⟩
  · show serverUnit.writable (resolvePath penv "/var/lib/ruroco".toList) = true
    rw [isAbsolute_resolve (by decide)]
    decide +kernel
  · show serverUnit.writable (resolvePath penv "/etc/ruroco/".toList) = false
    rw [isAbsolute_resolve (by decide)]
    decide +kernel
  · show commanderSocketPath penv "/run/ruroco".toList = commanderSocketPath penv' "/run/ruroco".toList
    unfold commanderSocketPath
    rw [isAbsolute_resolve (by decide), isAbsolute_resolve (by decide)]
  · show commanderSocketPath penv "/run/ruroco".toList = _
    unfold commanderSocketPath
    rw [isAbsolute_resolve (by decide)]
    decide +kernel

/-- **C92** The line `blocklist_dir`, called optional, cannot be left out: the rest of the file is read, but no start succeeds. -/
theorem C92_blocklist_dir_mandatory :
    ∃ c, ConfigServer.deserialize (shippedConfig.filter (fun e => e.1 != "blocklist_dir".toList)) = .ok c ∧
      ∀ penv senv w w' s, Enforced serverUnit w w' → Server.create (c.running penv) senv w ≠ (.ok s, w') := by
  refine ⟨{ shippedServer with blocklistDir := none }, by decide +kernel, fun penv senv w w' s hen => C92_outside_never_starts _ senv ?_ w w' hen s⟩
  show serverUnit.writable (resolvePath penv "/etc/ruroco/".toList) = false
  rw [isAbsolute_resolve (by decide)]
  decide +kernel

/-! ## The hypotheses are met -/

def exUnitStart (t : U128) : Ev := .start ⟨[], [some t, some t, some t]⟩ { exServer.cfg with maxPerIp := 10, blDir := "/var/lib/ruroco".toList } ⟨exDir, id, true, 0⟩

/-- Started twice, with requests in between, in the directory of the shipped configuration; two requests are forwarded, and twelve calls change files. -/
def exUnitHistory : List Ev := [exUnitStart 1000, exPacket 5000 1100 [], .kill, exUnitStart 2000, exPacket 5000 2100 [], exPacket 6000 2200 []]

example : serverUnit.writable "/var/lib/ruroco".toList = true ∧
    Run toyAead "/var/lib/ruroco".toList ⟨exEmpty, none⟩ exUnitHistory (exUnitHistory.foldl (exec toyAead) ⟨exEmpty, none⟩) ∧
    (forwards (exUnitHistory.foldl (exec toyAead) ⟨exEmpty, none⟩).w.log).map (fun x => x.2.1) = [5000, 6000] := by
  refine ⟨by decide +kernel, ?_, by decide +kernel⟩
  apply run_exec
  refine ⟨⟨rfl, rfl⟩, ?_, trivial, ⟨?_, ?_⟩, ?_, ?_, trivial⟩ <;> first | rfl | decide +kernel

/-- Outside the sandbox the same settings do start, also in a directory that the unit does not leave writable; inside, the call that would create the temporary file fails. -/
example : serverUnit.writable "/etc/ruroco".toList = false ∧
    (Server.create { exServer.cfg with blDir := "/etc/ruroco".toList } ⟨exDir, id, true, 0⟩ (exEmpty.withEnv ⟨[], [some 1, some 1, some 1]⟩ [])).1.isOk = true ∧
    (Server.create { exServer.cfg with blDir := "/etc/ruroco".toList } ⟨exDir, id, true, 0⟩ (exEmpty.withEnv ⟨[.ok, .err 0], [some 1, some 1, some 1]⟩ [])).1.isOk = false := by decide +kernel

/-- Paths that do not lead where they seem to. -/
example : serverUnit.writable "/var/lib/ruroco/../other".toList = false ∧ serverUnit.writable "/etc/../var//lib/./ruroco/sub".toList = true ∧ serverUnit.writable "/var/lib/ruroco2".toList = false := by
  decide +kernel

/-- The socket: handed over by systemd; `address` in config.toml would be used by a server started by hand. -/
example : serverUnit.grants (createServerUdpSocket ⟨some "7".toList, some "1".toList, none⟩ 7 none (some "[::]:34020".toList)) = true ∧
    serverUnit.grants (createServerUdpSocket ⟨none, none, none⟩ 7 none (some "[::]:34020".toList)) = false ∧
    commanderUnit.grants (createServerUdpSocket ⟨none, none, none⟩ 7 none (some "[::]:34020".toList)) = true := by decide +kernel

end Ruroco
