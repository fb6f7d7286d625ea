import Verif.Props.UpdateCli
import Verif.Props.WizardEffects
import Verif.Model.UpdateLog

/-!
# C127: what an update says is so
-/

namespace Ruroco

open Spec (ChosenRelease UpToDate Installed AssetUrl Within)

/-! ## Reasoning about actions that write lines -/

/-- `Q` holds at the end, however the action ends. -/
def tellp (m : Tell α) (w : World) (Q : Out α → World → List UpdLine → Prop) : Prop := Q (m w).1 (m w).2.1 (m w).2.2

theorem tellp_bind (m : Tell α) (f : α → Tell β) (w : World) (Q : Out β → World → List UpdLine → Prop) :
    tellp (m >>= f) w Q ↔ tellp m w (fun o w' l => match o with
      | .ok a => tellp (f a) w' (fun o' w'' l' => Q o' w'' (l ++ l'))
      | .err e => Q (.err e) w' l
      | .crash => Q .crash w' l) := by
  unfold tellp
  simp only [bind, Tell.bind]
  rcases h : m w with ⟨o, w', l⟩
  cases o <;> exact Iff.rfl

theorem tellp_mono {m : Tell α} {w : World} {Q Q' : Out α → World → List UpdLine → Prop} (h : tellp m w Q) (hq : ∀ o w' l, Q o w' l → Q' o w' l) : tellp m w Q' := hq _ _ _ h

theorem tell_mute_bind (m : Tell α) (f : α → Tell β) : (m >>= f).mute = m.mute >>= fun a => (f a).mute := by
  funext w
  simp only [Tell.mute, bind, Tell.bind, Act.bind]
  rcases m w with ⟨o, w', l⟩
  cases o <;> rfl

theorem tell_mute_lift (m : Act α) : (Tell.lift m).mute = m := rfl

theorem tell_pure_act (a : α) (f : α → Act β) : (pure a >>= f) = f a := rfl

theorem mute_rollbackAll (dir : Path) (ns : List (List Char)) : (rollbackAllT dir ns).mute = rollbackAll dir ns := by
  induction ns with
  | nil => rfl
  | cons n ns ih =>
    unfold rollbackAllT rollbackAll
    rw [tell_mute_bind, tell_mute_lift]
    congr 1
    funext r
    cases r with
    | ok _ => exact ih
    | error _ =>
      show Tell.mute (Tell.say _ >>= fun _ => Tell.lift _ >>= fun _ => rollbackAllT dir ns) = _
      rw [tell_mute_bind]
      show (pure () >>= fun _ => Tell.mute (Tell.lift _ >>= fun _ => rollbackAllT dir ns)) = _
      rw [tell_pure_act, tell_mute_bind, tell_mute_lift, ih]

theorem mute_swapAll (dir : Path) (names : Bool) (applied : List (List Char)) (vs : List Verified) : (swapAllT dir names applied vs).mute = swapAll dir names applied vs := by
  induction vs generalizing applied with
  | nil => rfl
  | cons v vs ih =>
    unfold swapAllT swapAll
    rw [tell_mute_bind, tell_mute_lift]
    congr 1
    funext r
    cases r with
    | ok _ => exact ih _
    | error e =>
      show Tell.mute (rollbackAllT dir _ >>= fun _ => Tell.say _ >>= fun _ => Tell.lift (Act.throw e)) = _
      rw [tell_mute_bind, mute_rollbackAll]
      rfl

/-- **C127.** The update with its lines does exactly what the update of `Model/Update` does: same result, same effects, same trace. -/
theorem C127_same_update (u : Updater) (env : UpdEnv) : (u.updateT env).mute = u.update env := by
  unfold Updater.updateT Updater.update
  show Tell.mute (Tell.say _ >>= fun _ => Tell.lift _ >>= _) = _
  rw [tell_mute_bind]
  show (pure () >>= fun _ => Tell.mute (Tell.lift _ >>= _)) = _
  rw [tell_pure_act, tell_mute_bind, tell_mute_lift]
  congr 1
  funext r
  cases r with
  | none => rfl
  | some vs =>
    show Tell.mute (swapAllT u.binPath env.names [] vs >>= fun _ => Tell.say _) = _
    rw [tell_mute_bind, mute_swapAll]
    funext w
    simp only [bind, Act.bind]
    rcases swapAll u.binPath env.names [] vs w with ⟨o, w'⟩
    cases o <;> rfl

/-! ## The lines about rolling back -/

/-- Any event but that of a rollback that fails. -/
def NotRollback (e : Event) : Prop := ∀ p, e ≠ .rollbackFailed p

local notation "N" => Within (fun _ => True) NotRollback

theorem nr_stat (p : Path) : Always N (stat p) := by
  have hR := within_pre (fun _ => True) NotRollback
  unfold stat
  refine Always.bind hR (within_look (fun _ h => by cases h)) (fun _ => Always.bind hR (Always.peek hR _) (fun f => ?_))
  cases f with
  | none => exact Always.throw hR _
  | some f => exact Always.pure hR _

theorem nr_pathExists (p : Path) : Always N (pathExists p) := by
  have hR := within_pre (fun _ => True) NotRollback
  unfold pathExists
  refine Always.bind hR (Always.attempt (within_look (fun _ h => by cases h))) (fun r => ?_)
  cases r with
  | ok _ => exact Always.bind hR (Always.peek hR _) (fun _ => Always.pure hR _)
  | error _ => exact Always.bind hR (within_note (fun _ h => by cases h)) (fun _ => Always.pure hR _)

theorem nr_writeAtomic (p : Path) (bs : List Byte) (m : Option Nat) : Always N (writeAtomicWithMode p bs m) := by
  have hR := within_pre (fun _ => True) NotRollback
  unfold writeAtomicWithMode
  refine Always.bind hR within_nowNanos (fun t => ?_)
  refine Always.bind hR (within_openTrunc trivial (fun _ h => by cases h)) (fun _ => ?_)
  refine Always.bind hR (within_writeAll trivial (fun _ h => by cases h)) (fun _ => ?_)
  refine Always.bind hR (within_fsync trivial (fun _ h => by cases h)) (fun _ => ?_)
  have fin : Always N (do rename (tmpPath p t) p; fsyncDir p) :=
    Always.bind hR (within_rename trivial trivial (fun _ h => by cases h)) (fun _ => within_fsyncDir (fun _ h => by cases h) (fun _ h => by cases h))
  cases m with
  | none => exact fin
  | some m => exact Always.bind hR (nr_stat _) (fun _ => Always.bind hR (within_chmod trivial (fun _ h => by cases h)) (fun _ => fin))

theorem nr_copyFile (a b : Path) : Always N (copyFile a b) := by
  have hR := within_pre (fun _ => True) NotRollback
  unfold copyFile
  refine Always.bind hR (within_look (fun _ h => by cases h)) (fun _ => Always.bind hR (Always.peek hR _) (fun f => ?_))
  cases f with
  | none => exact Always.throw hR _
  | some f =>
    refine Always.bind hR (within_call (fun _ h => by cases h) (fun _ => rfl) (fun w q hq => absurd trivial hq)) (fun _ => ?_)
    exact Always.bind hR (within_chmod trivial (fun _ h => by cases h)) (fun _ => within_writeAll trivial (fun _ h => by cases h))

theorem nr_saveBin (dir : Path) (names : Bool) (v : Verified) : Always N (saveBin dir names v) := by
  have hR := within_pre (fun _ => True) NotRollback
  unfold saveBin backupBin
  have fin : Always N (do writeAtomicWithMode (binFile dir v.name) v.bytes (some v.mode); match v.owner with | some ug => changeOwnership (binFile dir v.name) ug ug names | none => pure ()) := by
    refine Always.bind hR (nr_writeAtomic _ _ _) (fun _ => ?_)
    cases v.owner with
    | none => exact Always.pure hR _
    | some ug =>
      show Always _ (changeOwnership _ _ _ _)
      unfold changeOwnership
      split
      · exact Always.throw hR _
      · exact within_chown trivial (fun _ h => by cases h)
  refine Always.bind hR (nr_pathExists _) (fun b => ?_)
  cases b with
  | false => exact fin
  | true =>
    refine Always.bind hR (Always.bind hR (Always.attempt (nr_copyFile _ _)) (fun r => ?_)) (fun _ => fin)
    cases r with
    | ok _ => exact Always.pure hR _
    | error _ => exact Always.bind hR (within_note (fun _ h => by cases h)) (fun _ => Always.throw hR _)

theorem nr_rollbackBin (dir : Path) (name : List Char) : Always N (rollbackBin dir name) := by
  have hR := within_pre (fun _ => True) NotRollback
  unfold rollbackBin
  refine Always.bind hR (nr_pathExists _) (fun b => ?_)
  cases b with
  | true => exact within_rename trivial trivial (fun _ h => by cases h)
  | false =>
    refine Always.bind hR (nr_pathExists _) (fun b => ?_)
    cases b with
    | false => exact Always.pure hR _
    | true =>
      show Always _ (removeFile _)
      unfold removeFile
      refine Always.bind hR (Always.peek hR _) (fun f => ?_)
      cases f with
      | none => exact Always.throw hR _
      | some f => exact within_call (fun _ h => by cases h) (fun _ => rfl) (fun w q hq => absurd trivial hq)

/-- The rollbacks that failed in this part of the trace are those named in these lines. -/
def Told (dir : Path) (l : List Event) (ls : List UpdLine) : Prop := ∀ p, .rollbackFailed p ∈ l ↔ ∃ n, .notRolledBack n ∈ ls ∧ p = binFile dir n

theorem told_append {dir : Path} {l l' : List Event} {ls ls' : List UpdLine} (h : Told dir l ls) (h' : Told dir l' ls') : Told dir (l ++ l') (ls ++ ls') := by
  intro p
  rw [List.mem_append, h p, h' p]
  constructor
  · rintro (⟨n, a, b⟩ | ⟨n, a, b⟩)
    · exact ⟨n, List.mem_append_left _ a, b⟩
    · exact ⟨n, List.mem_append_right _ a, b⟩
  · rintro ⟨n, a, b⟩
    rcases List.mem_append.1 a with a | a
    · exact .inl ⟨n, a, b⟩
    · exact .inr ⟨n, a, b⟩

theorem told_quiet {dir : Path} {l : List Event} {ls : List UpdLine} (h : ∀ e ∈ l, NotRollback e) (h' : ∀ n, .notRolledBack n ∉ ls) : Told dir l ls := by
  intro p
  constructor
  · intro hp; exact absurd rfl (h _ hp p)
  · rintro ⟨n, a, _⟩; exact absurd a (h' n)

theorem attempt_cases (m : Act α) (w : World) : (∃ r, (m.attempt w).1 = .ok r) ∨ (m.attempt w).1 = .crash := by
  unfold Act.attempt
  rcases m w with ⟨o, w'⟩
  cases o with
  | ok a => exact .inl ⟨_, rfl⟩
  | err e => exact .inl ⟨_, rfl⟩
  | crash => exact .inr rfl

theorem rollback_told (dir : Path) (ns : List (List Char)) (w : World) :
    tellp (rollbackAllT dir ns) w (fun o w' ls => (∀ e, o ≠ .err e) ∧ (∃ l, w'.log = w.log ++ l ∧ Told dir l ls) ∧ ∀ x ∈ ls, ∃ n ∈ ns, x = .notRolledBack n) := by
  induction ns generalizing w with
  | nil => exact ⟨(fun e h => by cases h), ⟨[], (List.append_nil _).symm, told_quiet (fun _ h => by cases h) (fun _ h => by cases h)⟩, fun _ h => by cases h⟩
  | cons n ns ih =>
    unfold rollbackAllT
    rw [tellp_bind]
    have hq := Always.attempt (nr_rollbackBin dir n) w
    have hc := attempt_cases (rollbackBin dir n) w
    unfold tellp Tell.lift
    simp only
    rcases hm : (rollbackBin dir n).attempt w with ⟨o, w1⟩
    rw [hm] at hq hc
    obtain ⟨⟨l, hl, hn⟩, _⟩ := hq
    cases o with
    | err e => rcases hc with ⟨r, hr⟩ | hr <;> cases hr
    | crash => exact ⟨(fun e h => by cases h), ⟨l, hl, told_quiet hn (fun _ h => by cases h)⟩, fun _ h => by cases h⟩
    | ok r =>
      cases r with
      | ok _ =>
        obtain ⟨h1, ⟨l', hl', ht⟩, h3⟩ := ih w1
        refine ⟨h1, ⟨l ++ l', by rw [hl', hl, List.append_assoc], ?_⟩, fun x hx => ?_⟩
        · exact told_append (told_quiet hn (fun _ h => by cases h)) ht
        · obtain ⟨m, hm', he⟩ := h3 x hx
          exact ⟨m, List.mem_cons_of_mem _ hm', he⟩
      | error e =>
        obtain ⟨h1, ⟨l', hl', ht⟩, h3⟩ := ih { w1 with log := w1.log ++ [.rollbackFailed (binFile dir n)] }
        have mid : Told dir [.rollbackFailed (binFile dir n)] [.notRolledBack n] := by
          intro p
          constructor
          · intro hp
            cases List.mem_singleton.1 hp
            exact ⟨n, List.mem_singleton.2 rfl, rfl⟩
          · rintro ⟨m, hm', rfl⟩
            cases List.mem_singleton.1 hm'
            exact List.mem_singleton.2 rfl
        refine ⟨h1, ⟨l ++ ([.rollbackFailed (binFile dir n)] ++ l'), ?_, ?_⟩, fun x hx => ?_⟩
        · refine Eq.trans hl' ?_
          show (w1.log ++ [.rollbackFailed (binFile dir n)]) ++ l' = _
          rw [hl]
          simp only [List.append_assoc]
        · exact told_append (told_quiet hn (fun _ h => by cases h)) (told_append mid ht)
        · have hx : x ∈ UpdLine.notRolledBack n :: ((rollbackAllT dir ns) { w1 with log := w1.log ++ [.rollbackFailed (binFile dir n)] }).2.2 := hx
          rcases List.mem_cons.1 hx with rfl | hx
          · exact ⟨n, List.mem_cons_self .., rfl⟩
          · obtain ⟨m, hm', he⟩ := h3 x hx
            exact ⟨m, List.mem_cons_of_mem _ hm', he⟩

/-- What swapping the binaries says, by how it ends. -/
def SwapSays (applied : List (List Char)) (vs : List Verified) (o : Out Unit) (ls : List UpdLine) : Prop :=
  match o with
  | .ok () => ls = []
  | .crash => ∀ x ∈ ls, ∃ n ∈ applied ++ vs.map (·.name), x = .notRolledBack n
  | .err _ => ∃ before v after said, vs = before ++ v :: after ∧ ls = said ++ [.failedApplying v.name (applied ++ before.map (·.name) ++ [v.name])] ∧
      ∀ x ∈ said, ∃ n ∈ applied ++ before.map (·.name) ++ [v.name], x = .notRolledBack n

theorem swap_says (dir : Path) (names : Bool) (vs : List Verified) (applied : List (List Char)) (w : World) :
    tellp (swapAllT dir names applied vs) w (fun o w' ls => (∃ l, w'.log = w.log ++ l ∧ Told dir l ls) ∧ SwapSays applied.reverse vs o ls) := by
  induction vs generalizing applied w with
  | nil => exact ⟨⟨[], (List.append_nil _).symm, told_quiet (fun _ h => by cases h) (fun _ h => by cases h)⟩, rfl⟩
  | cons v vs ih =>
    unfold swapAllT
    rw [tellp_bind]
    have hq := Always.attempt (nr_saveBin dir names v) w
    have hc := attempt_cases (saveBin dir names v) w
    unfold tellp Tell.lift
    simp only
    rcases hm : (saveBin dir names v).attempt w with ⟨o, w1⟩
    rw [hm] at hq hc
    obtain ⟨⟨l, hl, hn⟩, _⟩ := hq
    have q0 : Told dir l [] := told_quiet hn (fun _ h => by cases h)
    cases o with
    | err e => rcases hc with ⟨r, hr⟩ | hr <;> cases hr
    | crash => exact ⟨⟨l, hl, q0⟩, fun _ h => by cases h⟩
    | ok r =>
      cases r with
      | ok _ =>
        obtain ⟨⟨l', hl', ht⟩, h3⟩ := ih (v.name :: applied) w1
        refine ⟨⟨l ++ l', ?_, told_append q0 ht⟩, ?_⟩
        · show ((swapAllT dir names (v.name :: applied) vs) w1).2.1.log = _
          rw [hl', hl, List.append_assoc]
        · show SwapSays applied.reverse (v :: vs) ((swapAllT dir names (v.name :: applied) vs) w1).1 ((swapAllT dir names (v.name :: applied) vs) w1).2.2
          generalize ((swapAllT dir names (v.name :: applied) vs) w1).1 = o, ((swapAllT dir names (v.name :: applied) vs) w1).2.2 = ls at h3 ⊢
          unfold SwapSays at h3 ⊢
          cases o with
          | ok _ => exact h3
          | crash =>
            simp only [List.reverse_cons, List.append_assoc] at h3
            exact h3
          | err e =>
            obtain ⟨b, x, a, said, h1, h2, h4⟩ := h3
            simp only [List.reverse_cons, List.append_assoc, List.cons_append, List.nil_append] at h2 h4
            refine ⟨v :: b, x, a, said, by rw [h1]; rfl, ?_, ?_⟩
            · simpa only [List.map_cons, List.append_assoc, List.cons_append] using h2
            · simpa only [List.map_cons, List.append_assoc, List.cons_append] using h4
      | error e =>
        have hr := rollback_told dir (v.name :: applied) w1
        have hb : tellp (rollbackAllT dir (v.name :: applied) >>= fun _ => Tell.say [.failedApplying v.name (v.name :: applied).reverse] >>= fun _ => Tell.lift (Act.throw e)) w1
            (fun o w' ls => (∃ l', w'.log = w.log ++ l' ∧ Told dir l' ls) ∧ SwapSays applied.reverse (v :: vs) o ls) := by
          rw [tellp_bind]
          refine tellp_mono (α := Unit) hr (fun o w2 ls => ?_)
          rintro ⟨h1, ⟨l', hl', ht⟩, h3⟩
          have hlog : w2.log = w.log ++ (l ++ l') := by rw [hl', hl, List.append_assoc]
          cases o with
          | err e => exact absurd rfl (h1 e)
          | crash =>
            refine ⟨⟨l ++ l', hlog, told_append q0 ht⟩, fun x hx => ?_⟩
            obtain ⟨m, hm', he⟩ := h3 x hx
            refine ⟨m, ?_, he⟩
            rcases List.mem_cons.1 hm' with rfl | hm'
            · exact List.mem_append_right _ (List.mem_cons_self ..)
            · exact List.mem_append_left _ (List.mem_reverse.2 hm')
          | ok _ =>
            have ht' : Told dir (l ++ l') (ls ++ [.failedApplying v.name (v.name :: applied).reverse]) := by
              have := told_append (told_append q0 ht) (told_quiet (dir := dir) (l := []) (ls := [.failedApplying v.name (v.name :: applied).reverse]) (fun _ h => by cases h) (fun n h => by cases List.mem_singleton.1 h))
              rwa [List.append_nil, List.nil_append] at this
            refine ⟨⟨l ++ l', hlog, ht'⟩, [], v, vs, ls, rfl, ?_, fun x hx => ?_⟩
            · show ls ++ ([UpdLine.failedApplying v.name (v.name :: applied).reverse] ++ []) = _
              simp only [List.reverse_cons, List.map_nil, List.append_nil]
            · obtain ⟨m, hm', he⟩ := h3 x hx
              refine ⟨m, ?_, he⟩
              simp only [List.map_nil, List.append_nil]
              rcases List.mem_cons.1 hm' with rfl | hm'
              · exact List.mem_append_right _ (List.mem_cons_self ..)
              · exact List.mem_append_left _ (List.mem_reverse.2 hm')
        exact hb

/-! ## The lines of the plan -/

theorem plan_of_uptodate (u : Updater) (env : UpdEnv) (h : UpToDate u env) : u.plan env = .ok none ∧ u.planLines env = [.already env.current] := by
  obtain ⟨hf, hv⟩ := h
  unfold Updater.plan Updater.planLines
  by_cases h0 : u.version = some env.current
  · have hc : (!u.force && u.version == some env.current) = true := by rw [hf, h0]; simp
    rw [if_pos hc, if_pos hc]
    exact ⟨rfl, rfl⟩
  · have hc : ¬ (!u.force && u.version == some env.current) = true := by
      simp only [Bool.and_eq_true, beq_iff_eq]
      exact fun h => h0 h.2
    rw [if_neg hc, if_neg hc]
    rcases hv with hv | ⟨r, hr, ht⟩
    · exact absurd hv h0
    · have hs := (C46_release env u.version r).2 hr
      rw [hs]
      have hc' : (!u.force && env.current == r.tag) = true := by rw [hf, ht]; simp
      refine ⟨?_, ?_⟩
      · show (if (!u.force && env.current == r.tag) = true then pure none else _) = _
        rw [if_pos hc']
        rfl
      · show (if (!u.force && env.current == r.tag) = true then [UpdLine.already env.current] else _) = _
        rw [if_pos hc']

/-- The only lines of the download step are about downloads of the release's assets. -/
theorem download_lines (env : UpdEnv) (r : Release) (ts : List Target) (i : Nat) (x : UpdLine) (h : x ∈ downloadLines env r i ts) :
    ∃ t ∈ ts, ∃ url, x = .downloading url ∧ AssetUrl r (t.pfx ++ "-".toList ++ r.tag ++ "-".toList ++ env.arch ++ "-".toList ++ env.os) url := by
  induction ts generalizing i with
  | nil => cases h
  | cons t ts ih =>
    unfold downloadLines at h
    split at h
    · rename_i b s hb hs
      rcases List.mem_cons.1 h with rfl | h
      · refine ⟨t, List.mem_cons_self .., b, rfl, (C46_asset r _ b).1 ?_⟩
        have e : t.pfx ++ "-".toList ++ r.tag ++ "-".toList ++ env.arch ++ "-".toList ++ env.os = assetName env t.pfx r.tag := by
          unfold assetName
          simp only [show "-".toList = ['-'] from rfl, List.append_assoc, List.cons_append, List.nil_append]
        rw [e]
        exact hb
      · split at h
        · obtain ⟨t', h1, h2⟩ := ih _ h
          exact ⟨t', List.mem_cons_of_mem _ h1, h2⟩
        · cases h
    · cases h

/-- What the lines written before anything is installed can be. -/
def Foretold (u : Updater) (env : UpdEnv) (x : UpdLine) : Prop :=
  (x = .already env.current ∧ UpToDate u env) ∨
  ∃ r, ChosenRelease env u.version r ∧ ¬ UpToDate u env ∧
    ((x = .refusedDowngrade env.current r.tag ∧ u.force = false ∧ u.version = none ∧ isDowngrade env.current r.tag = some true ∧ u.plan env = .error .downgrade) ∨
     (x = .uncomparable env.current r.tag ∧ u.force = false ∧ u.version = none ∧ isDowngrade env.current r.tag = none) ∨
     ∃ t ∈ u.targets, ∃ url, x = .downloading url ∧ AssetUrl r (t.pfx ++ "-".toList ++ r.tag ++ "-".toList ++ env.arch ++ "-".toList ++ env.os) url)

theorem plan_lines (u : Updater) (env : UpdEnv) (x : UpdLine) (h : x ∈ u.planLines env) : Foretold u env x := by
  by_cases hu : UpToDate u env
  · rw [(plan_of_uptodate u env hu).2] at h
    exact .inl ⟨List.mem_singleton.1 h, hu⟩
  · refine .inr ?_
    unfold Updater.planLines at h
    split at h
    · rename_i h0
      simp only [Bool.and_eq_true, Bool.not_eq_true', beq_iff_eq] at h0
      exact absurd ⟨h0.1, .inl h0.2⟩ hu
    · rename_i h0
      split at h
      · cases h
      · rename_i r hr
        have hc := (C46_release env u.version r).1 hr
        refine ⟨r, hc, hu, ?_⟩
        split at h
        · rename_i h1
          simp only [Bool.and_eq_true, Bool.not_eq_true', beq_iff_eq] at h1
          exact absurd ⟨h1.1, .inr ⟨r, hc, h1.2.symm⟩⟩ hu
        · rename_i h1
          split at h
          · rename_i h2
            refine .inl ⟨List.mem_singleton.1 h, ?_⟩
            have h2' := h2
            simp only [Bool.and_eq_true, Bool.not_eq_true', beq_iff_eq, Option.isNone_iff_eq_none] at h2'
            refine ⟨h2'.1.1, h2'.1.2, h2'.2, ?_⟩
            unfold Updater.plan
            rw [if_neg h0, hr]
            show (if _ then _ else if _ then _ else _) = _
            rw [if_neg h1, if_pos h2]
            rfl
          · rcases List.mem_append.1 h with h | h
            · split at h
              · rename_i h3
                simp only [Bool.and_eq_true, Bool.not_eq_true', beq_iff_eq, Option.isNone_iff_eq_none] at h3
                exact .inr (.inl ⟨List.mem_singleton.1 h, h3.1.1, h3.1.2, h3.2⟩)
              · cases h
            · exact .inr (.inr (download_lines env r u.targets 0 x h))

/-! ## The whole update -/

/-- The three ways an update goes, with its lines. -/
theorem updateT_cases (u : Updater) (env : UpdEnv) (w : World) :
    (UpToDate u env ∧ u.updateT env w = (.ok (), w, [.already env.current])) ∨
    (∃ e, ¬ UpToDate u env ∧ u.plan env = .error e ∧ u.updateT env w = (.err e, w, u.planLines env)) ∨
    (∃ vs, ¬ UpToDate u env ∧ u.plan env = .ok (some vs) ∧ ∃ o w' ls, swapAllT u.binPath env.names [] vs w = (o, w', ls) ∧
      u.updateT env w = (o, w', u.planLines env ++ (ls ++ if o = .ok () ∧ u.server = true then [.serverUpdated] else []))) := by
  by_cases hu : UpToDate u env
  · refine .inl ⟨hu, ?_⟩
    obtain ⟨hp, hl⟩ := plan_of_uptodate u env hu
    show Tell.bind (Tell.say (u.planLines env)) (fun _ => Tell.bind (Tell.lift (Act.ofExcept (u.plan env))) _) w = _
    rw [hp, hl]
    rfl
  · refine .inr ?_
    cases hp : u.plan env with
    | error e =>
      refine .inl ⟨e, hu, rfl, ?_⟩
      show Tell.bind (Tell.say (u.planLines env)) (fun _ => Tell.bind (Tell.lift (Act.ofExcept (u.plan env))) _) w = _
      rw [hp]
      show (Out.err e, w, u.planLines env ++ []) = _
      rw [List.append_nil]
    | ok x =>
      cases x with
      | none => exact absurd (plan_none u env hp) hu
      | some vs =>
        refine .inr ⟨vs, hu, rfl, ?_⟩
        rcases hs : swapAllT u.binPath env.names [] vs w with ⟨o, w', ls⟩
        refine ⟨o, w', ls, rfl, ?_⟩
        show Tell.bind (Tell.say (u.planLines env)) (fun _ => Tell.bind (Tell.lift (Act.ofExcept (u.plan env))) _) w = _
        rw [hp]
        have e : (Tell.bind (swapAllT u.binPath env.names [] vs) (fun _ => Tell.say (if u.server then [.serverUpdated] else []))) w =
            (o, w', ls ++ if o = .ok () ∧ u.server = true then [.serverUpdated] else []) := by
          unfold Tell.bind
          rw [hs]
          cases o with
          | ok a => simp [Tell.say]
          | err e => simp
          | crash => simp
        show ((Tell.bind (swapAllT u.binPath env.names [] vs) (fun _ => Tell.say (if u.server then [.serverUpdated] else [])) w).1,
          (Tell.bind (swapAllT u.binPath env.names [] vs) (fun _ => Tell.say (if u.server then [.serverUpdated] else [])) w).2.1,
          u.planLines env ++ ([] ++ (Tell.bind (swapAllT u.binPath env.names [] vs) (fun _ => Tell.say (if u.server then [.serverUpdated] else [])) w).2.2)) = _
        rw [e, List.nil_append]

theorem updateT_out (u : Updater) (env : UpdEnv) (w : World) : (u.updateT env w).1 = (u.update env w).1 := congrArg Prod.fst (congrFun (C127_same_update u env) w)

theorem updateT_world (u : Updater) (env : UpdEnv) (w : World) : (u.updateT env w).2.1 = (u.update env w).2 := congrArg Prod.snd (congrFun (C127_same_update u env) w)

theorem swap_lines {applied : List (List Char)} {vs : List Verified} {o : Out Unit} {ls : List UpdLine} (h : SwapSays applied vs o ls) (x : UpdLine) (hx : x ∈ ls) :
    (∃ n, x = .notRolledBack n) ∨ ∃ n l, x = .failedApplying n l := by
  unfold SwapSays at h
  cases o with
  | ok _ => rw [h] at hx; cases hx
  | crash => obtain ⟨n, _, e⟩ := h x hx; exact .inl ⟨n, e⟩
  | err _ =>
    obtain ⟨b, v, a, said, _, h2, h3⟩ := h
    rw [h2] at hx
    rcases List.mem_append.1 hx with hx | hx
    · obtain ⟨n, _, e⟩ := h3 x hx; exact .inl ⟨n, e⟩
    · exact .inr ⟨_, _, List.mem_singleton.1 hx⟩

theorem swap_facts (u : Updater) (env : UpdEnv) (w w' : World) (vs : List Verified) (o : Out Unit) (ls : List UpdLine) (h : swapAllT u.binPath env.names [] vs w = (o, w', ls)) :
    (∃ l, w'.log = w.log ++ l ∧ Told u.binPath l ls) ∧ SwapSays [] vs o ls := by
  have := swap_says u.binPath env.names vs [] w
  unfold tellp at this
  rw [h] at this
  exact this

theorem foretold_not {u : Updater} {env : UpdEnv} {x : UpdLine} (h : Foretold u env x) : x ≠ .serverUpdated ∧ (∀ n, x ≠ .notRolledBack n) ∧ ∀ n l, x ≠ .failedApplying n l := by
  rcases h with ⟨rfl, _⟩ | ⟨r, _, _, ⟨rfl, _⟩ | ⟨rfl, _⟩ | ⟨t, _, url, rfl, _⟩⟩ <;> exact ⟨(by intro h; cases h), (by intro n h; cases h), (by intro n l h; cases h)⟩

/-- Every line is one of those written before anything is installed, or a report on the swap. -/
theorem updateT_lines (u : Updater) (env : UpdEnv) (w : World) (x : UpdLine) (hx : x ∈ (u.updateT env w).2.2) :
    Foretold u env x ∨ (∃ n, x = .notRolledBack n) ∨ (∃ n l, x = .failedApplying n l) ∨ x = .serverUpdated := by
  rcases updateT_cases u env w with ⟨hu, he⟩ | ⟨e, hu, hp, he⟩ | ⟨vs, hu, hp, o, w', ls, hs, he⟩
  · rw [he] at hx
    exact .inl (.inl ⟨List.mem_singleton.1 hx, hu⟩)
  · rw [he] at hx
    exact .inl (plan_lines u env x hx)
  · rw [he] at hx
    rcases List.mem_append.1 hx with hx | hx
    · exact .inl (plan_lines u env x hx)
    · rcases List.mem_append.1 hx with hx | hx
      · rcases swap_lines (swap_facts u env w w' vs o ls hs).2 x hx with h | h
        · exact .inr (.inl h)
        · exact .inr (.inr (.inl h))
      · split at hx
        · exact .inr (.inr (.inr (List.mem_singleton.1 hx)))
        · cases hx

/-- **C127.** An update says that the version is already in use exactly when there is nothing to do; then it says only that, naming the running version, and does nothing. -/
theorem C127_already (u : Updater) (env : UpdEnv) (w : World) :
    ((∃ v, .already v ∈ (u.updateT env w).2.2) ↔ UpToDate u env) ∧ (UpToDate u env → u.updateT env w = (.ok (), w, [.already env.current])) := by
  have hd : UpToDate u env → u.updateT env w = (.ok (), w, [.already env.current]) := by
    intro hu
    rcases updateT_cases u env w with ⟨_, he⟩ | ⟨_, hn, _⟩ | ⟨_, hn, _⟩
    · exact he
    · exact absurd hu hn
    · exact absurd hu hn
  refine ⟨⟨?_, fun hu => ⟨env.current, ?_⟩⟩, hd⟩
  · rintro ⟨v, hv⟩
    rcases updateT_lines u env w _ hv with (⟨_, hu⟩ | ⟨r, _, _, ⟨h, _⟩ | ⟨h, _⟩ | ⟨t, _, url, h, _⟩⟩) | ⟨n, h⟩ | ⟨n, l, h⟩ | h
    · exact hu
    all_goals cases h
  · rw [hd hu]
    exact List.mem_singleton.2 rfl

/-- **C127.** An update says that the server binaries were updated, and asks for a restart, exactly when it was for the server side, had something to do, and succeeded. -/
theorem C127_updated_iff (u : Updater) (env : UpdEnv) (w : World) :
    .serverUpdated ∈ (u.updateT env w).2.2 ↔ u.server = true ∧ ¬ UpToDate u env ∧ (u.update env w).1 = .ok () := by
  rw [← updateT_out]
  rcases updateT_cases u env w with ⟨hu, he⟩ | ⟨e, hu, hp, he⟩ | ⟨vs, hu, hp, o, w', ls, hs, he⟩
  · rw [he]
    exact ⟨(fun h => by cases List.mem_singleton.1 h), fun h => absurd hu h.2.1⟩
  · rw [he]
    exact ⟨fun h => absurd rfl (foretold_not (plan_lines u env _ h)).1, fun h => by cases h.2.2⟩
  · rw [he]
    constructor
    · intro h
      rcases List.mem_append.1 h with h | h
      · exact absurd rfl (foretold_not (plan_lines u env _ h)).1
      · rcases List.mem_append.1 h with h | h
        · rcases swap_lines (swap_facts u env w w' vs o ls hs).2 _ h with ⟨n, h⟩ | ⟨n, l, h⟩ <;> cases h
        · split at h
          · rename_i hc
            exact ⟨hc.2, hu, hc.1⟩
          · cases h
    · rintro ⟨h1, _, h3⟩
      refine List.mem_append_right _ (List.mem_append_right _ ?_)
      rw [if_pos ⟨h3, h1⟩]
      exact List.mem_singleton.2 rfl

/-- **C127.** ... and then the verified binaries of the chosen release are in place. -/
theorem C127_updated (u : Updater) (env : UpdEnv) (w : World) (h : .serverUpdated ∈ (u.updateT env w).2.2) :
    ∃ r, ChosenRelease env u.version r ∧ Installed u env r (u.update env w).2 := by
  obtain ⟨_, hn, hok⟩ := (C127_updated_iff u env w).1 h
  exact C73_installed_partial u env w hok (fun hu => absurd hu hn)

/-- **C127.** Whatever an update says it downloads is the file of the chosen release for this machine and one of the binaries of this side. -/
theorem C127_downloads (u : Updater) (env : UpdEnv) (w : World) (url : List Char) (h : .downloading url ∈ (u.updateT env w).2.2) :
    ∃ r, ChosenRelease env u.version r ∧ ∃ t ∈ u.targets, AssetUrl r (t.pfx ++ "-".toList ++ r.tag ++ "-".toList ++ env.arch ++ "-".toList ++ env.os) url := by
  rcases updateT_lines u env w _ h with (⟨h, _⟩ | ⟨r, hr, _, ⟨h, _⟩ | ⟨h, _⟩ | ⟨t, ht, url', h, ha⟩⟩) | ⟨n, h⟩ | ⟨n, l, h⟩ | h
  · cases h
  · cases h
  · cases h
  · cases h
    exact ⟨r, hr, t, ht, ha⟩
  all_goals cases h

/-- **C127.** An update that says it refuses a downgrade names the running version and that of the chosen release, fails, and has changed nothing. -/
theorem C127_refused (u : Updater) (env : UpdEnv) (w : World) (c t : List Char) (h : .refusedDowngrade c t ∈ (u.updateT env w).2.2) :
    c = env.current ∧ (∃ r, ChosenRelease env u.version r ∧ t = r.tag) ∧ u.update env w = (.err .downgrade, w) := by
  rcases updateT_lines u env w _ h with (⟨h, _⟩ | ⟨r, hr, hu, ⟨h, _, _, _, hp⟩ | ⟨h, _⟩ | ⟨t, ht, url', h, ha⟩⟩) | ⟨n, h⟩ | ⟨n, l, h⟩ | h
  · cases h
  · cases h
    refine ⟨rfl, ⟨r, hr, rfl⟩, ?_⟩
    rcases update_cases u env w with ⟨hu', _⟩ | ⟨e, hp', he⟩ | ⟨vs, hp', _⟩
    · exact absurd hu' hu
    · rw [hp] at hp'
      cases hp'
      exact he
    · rw [hp] at hp'
      cases hp'
  all_goals cases h

/-- **C127.** The rollbacks that failed are exactly those reported. -/
theorem C127_rollbacks_told (u : Updater) (env : UpdEnv) (w : World) :
    ∃ l, (u.update env w).2.log = w.log ++ l ∧ ∀ p, .rollbackFailed p ∈ l ↔ ∃ n, .notRolledBack n ∈ (u.updateT env w).2.2 ∧ p = u.binPath ++ "/".toList ++ n := by
  have hb : ∀ n, binFile u.binPath n = u.binPath ++ "/".toList ++ n := fun n => by
    unfold binFile
    simp only [show "/".toList = ['/'] from rfl, List.append_assoc, List.cons_append, List.nil_append]
  suffices h : ∃ l, (u.update env w).2.log = w.log ++ l ∧ Told u.binPath l (u.updateT env w).2.2 by
    obtain ⟨l, h1, h2⟩ := h
    refine ⟨l, h1, fun p => ?_⟩
    rw [h2 p]
    simp only [hb]
  rw [← updateT_world]
  rcases updateT_cases u env w with ⟨hu, he⟩ | ⟨e, hu, hp, he⟩ | ⟨vs, hu, hp, o, w', ls, hs, he⟩
  · rw [he]
    exact ⟨[], (List.append_nil _).symm, told_quiet (fun _ h => by cases h) (fun n h => by cases List.mem_singleton.1 h)⟩
  · rw [he]
    exact ⟨[], (List.append_nil _).symm, told_quiet (fun _ h => by cases h) (fun n h => (foretold_not (plan_lines u env _ h)).2.1 n rfl)⟩
  · rw [he]
    obtain ⟨⟨l, hl, ht⟩, _⟩ := swap_facts u env w w' vs o ls hs
    refine ⟨l, hl, ?_⟩
    have h1 : Told u.binPath [] (u.planLines env) := told_quiet (fun _ h => by cases h) (fun n h => (foretold_not (plan_lines u env _ h)).2.1 n rfl)
    have h2 : Told u.binPath [] (if o = .ok () ∧ u.server = true then [.serverUpdated] else []) := by
      refine told_quiet (fun _ h => by cases h) (fun n h => ?_)
      split at h
      · cases List.mem_singleton.1 h
      · cases h
    have := told_append h1 (told_append ht h2)
    rwa [List.append_nil, List.nil_append] at this

/-- **C127.** The error of an update that failed while installing is its last line. It names the binary it failed at, and lists as rolled back that one and those before it, in the
order in which they are installed. -/
theorem C127_error_told (u : Updater) (env : UpdEnv) (w : World) (n : List Char) (l : List (List Char)) (h : .failedApplying n l ∈ (u.updateT env w).2.2) :
    (∃ e, (u.update env w).1 = .err e) ∧ (u.updateT env w).2.2.getLast? = some (.failedApplying n l) ∧ l.getLast? = some n ∧ l <+: u.targets.map (·.name) := by
  rw [← updateT_out]
  rcases updateT_cases u env w with ⟨hu, he⟩ | ⟨e, hu, hp, he⟩ | ⟨vs, hu, hp, o, w', ls, hs, he⟩
  · rw [he] at h
    cases List.mem_singleton.1 h
  · rw [he] at h
    exact absurd rfl ((foretold_not (plan_lines u env _ h)).2.2 n l)
  · rw [he] at h ⊢
    obtain ⟨_, hsw⟩ := swap_facts u env w w' vs o ls hs
    rcases List.mem_append.1 h with h | h
    · exact absurd rfl ((foretold_not (plan_lines u env _ h)).2.2 n l)
    · rcases List.mem_append.1 h with hx | h
      · unfold SwapSays at hsw
        cases o with
        | ok _ => rw [hsw] at hx; cases hx
        | crash => obtain ⟨m, _, e⟩ := hsw _ hx; cases e
        | err e =>
          obtain ⟨b, v, a, said, h1, h2, h3⟩ := hsw
          rw [h2] at hx
          have heq : UpdLine.failedApplying n l = .failedApplying v.name ([] ++ b.map (·.name) ++ [v.name]) := by
            rcases List.mem_append.1 hx with hx | hx
            · obtain ⟨m, _, e⟩ := h3 _ hx
              cases e
            · exact List.mem_singleton.1 hx
          obtain ⟨rfl, rfl⟩ := UpdLine.failedApplying.inj heq
          refine ⟨⟨e, rfl⟩, ?_, by simp, ?_⟩
          · show (u.planLines env ++ (ls ++ if Out.err e = Out.ok () ∧ u.server = true then [UpdLine.serverUpdated] else [])).getLast? = _
            rw [if_neg (fun h => by cases h.1), List.append_nil, h2, ← List.append_assoc, List.getLast?_concat]
          · obtain ⟨r, _, _, _, hl, hk⟩ := plan_some u env vs hp
            obtain ⟨_, _, h3⟩ := fetched_mem hl hk
            rw [← h3, h1]
            exact ⟨a.map (·.name), by simp⟩
      · split at h
        · cases List.mem_singleton.1 h
        · cases h

/-- **C127**, proved part: a failed update that reports no rollback as failed has left every binary as it was, if looking for files and making the safety copies went well and
there were no left-over copies. Missing: updates in which the safety copy could not be made, for which the list of what was rolled back is untrue. -/
theorem C127_failure_told_partial (u : Updater) (env : UpdEnv) (w : World) (e : Err) (he : (u.update env w).1 = .err e)
    (hquiet : ∀ n, .notRolledBack n ∉ (u.updateT env w).2.2) (hw : ∀ p, .rollbackFailed p ∉ w.log)
    (hio : ∀ p, .statFailed p ∉ (u.update env w).2.log ∧ .copyFailed p ∉ (u.update env w).2.log)
    (hstale : ∀ t ∈ u.targets, w.fs (binFile u.binPath t.name) = none → w.fs (binFile u.binPath t.name ++ ".old".toList) = none)
    (t : Target) (ht : t ∈ u.targets) : SameBin ((u.update env w).2.fs (binFile u.binPath t.name)) (w.fs (binFile u.binPath t.name)) := by
  obtain ⟨i, hi⟩ := List.getElem?_of_mem ht
  refine (C44_all_or_nothing_partial u env w (fun p => ⟨(hio p).1, (hio p).2, ?_⟩) hstale i t hi).1 e he
  obtain ⟨l, hl, hr⟩ := C127_rollbacks_told u env w
  rw [hl]
  intro h
  rcases List.mem_append.1 h with h | h
  · exact hw p h
  · obtain ⟨n, hn, _⟩ := (hr p).1 h
    exact hquiet n hn

/-- **C127 is false**, in every failed update with a failed rollback: the binary reported as "could not roll back" is listed as rolled back in the error that ends the update. -/
theorem C127_contradicts (u : Updater) (env : UpdEnv) (w : World) (n : List Char) (h : .notRolledBack n ∈ (u.updateT env w).2.2) (hc : (u.update env w).1 ≠ .crash) :
    ∃ m l, (u.updateT env w).2.2.getLast? = some (.failedApplying m l) ∧ n ∈ l := by
  suffices hs : ∃ m l, .failedApplying m l ∈ (u.updateT env w).2.2 ∧ n ∈ l by
    obtain ⟨m, l, h1, h2⟩ := hs
    exact ⟨m, l, (C127_error_told u env w m l h1).2.1, h2⟩
  rw [← updateT_out] at hc
  rcases updateT_cases u env w with ⟨hu, he⟩ | ⟨e, hu, hp, he⟩ | ⟨vs, hu, hp, o, w', ls, hs, he⟩
  · rw [he] at h
    cases List.mem_singleton.1 h
  · rw [he] at h
    exact absurd rfl ((foretold_not (plan_lines u env _ h)).2.1 n)
  · rw [he] at h hc ⊢
    obtain ⟨_, hsw⟩ := swap_facts u env w w' vs o ls hs
    rcases List.mem_append.1 h with h | h
    · exact absurd rfl ((foretold_not (plan_lines u env _ h)).2.1 n)
    · rcases List.mem_append.1 h with hx | h
      · unfold SwapSays at hsw
        cases o with
        | ok _ => rw [hsw] at hx; cases hx
        | crash => exact absurd rfl hc
        | err e =>
          obtain ⟨b, v, a, said, h1, h2, h3⟩ := hsw
          rw [h2] at hx
          rcases List.mem_append.1 hx with hx | hx
          · obtain ⟨m, hm, e⟩ := h3 _ hx
            cases e
            refine ⟨v.name, _, List.mem_append_right _ (List.mem_append_left _ ?_), hm⟩
            rw [h2]
            exact List.mem_append_right _ (List.mem_singleton.2 rfl)
          · cases List.mem_singleton.1 hx
      · split at h
        · cases List.mem_singleton.1 h
        · cases h

/-! ## All that a successful update writes -/

theorem asset_name_text (env : UpdEnv) (pfx tag : List Char) : pfx ++ "-".toList ++ tag ++ "-".toList ++ env.arch ++ "-".toList ++ env.os = assetName env pfx tag := by
  unfold assetName
  simp only [show "-".toList = ['-'] from rfl, List.append_assoc, List.cons_append, List.nil_append]

theorem download_said (env : UpdEnv) (r : Release) (ts : List Target) (i : Nat) (vs : List Verified) (h : downloadAll env r i ts = .ok vs) :
    ∃ urls : List (List Char), downloadLines env r i ts = urls.map .downloading ∧ urls.length = ts.length ∧
      ∀ (k : Nat) (t : Target) (url : List Char), ts[k]? = some t → urls[k]? = some url →
        AssetUrl r (t.pfx ++ "-".toList ++ r.tag ++ "-".toList ++ env.arch ++ "-".toList ++ env.os) url := by
  induction ts generalizing i vs with
  | nil => exact ⟨[], rfl, rfl, fun k t url h => by cases h⟩
  | cons t ts ih =>
    unfold downloadAll at h
    obtain ⟨b, hb, h⟩ := except_bind_ok.1 h
    obtain ⟨sg, hs, h⟩ := except_bind_ok.1 h
    obtain ⟨bytes, hv, h⟩ := except_bind_ok.1 h
    obtain ⟨rest, hr, h⟩ := except_bind_ok.1 h
    obtain ⟨urls, h1, h2, h3⟩ := ih (i + 1) rest hr
    refine ⟨b :: urls, ?_, by rw [List.length_cons, List.length_cons, h2], ?_⟩
    · unfold downloadLines
      rw [hb, hs]
      simp only [hv, h1, List.map_cons]
    · intro k t' url ht hu
      cases k with
      | zero =>
        cases ht
        cases hu
        rw [asset_name_text]
        exact (C46_asset r _ b).1 hb
      | succ k => exact h3 k t' url ht hu

/-- **C127.** All that an update that had something to do and succeeded has written: at first that the versions could not be compared, if that is so and an older version was not asked for;
then the address of each binary of the chosen release, in the order in which they are installed; for the server side that a restart is needed. -/
theorem C127_success_lines (u : Updater) (env : UpdEnv) (w : World) (hn : ¬ UpToDate u env) (hok : (u.update env w).1 = .ok ()) :
    ∃ r, ∃ urls : List (List Char), ChosenRelease env u.version r ∧ urls.length = u.targets.length ∧
      (∀ (k : Nat) (t : Target) (url : List Char), u.targets[k]? = some t → urls[k]? = some url →
        AssetUrl r (t.pfx ++ "-".toList ++ r.tag ++ "-".toList ++ env.arch ++ "-".toList ++ env.os) url) ∧
      (u.updateT env w).2.2 = (if u.force = false ∧ u.version = none ∧ isDowngrade env.current r.tag = none then [.uncomparable env.current r.tag] else []) ++
        (urls.map .downloading ++ if u.server = true then [.serverUpdated] else []) := by
  rw [← updateT_out] at hok
  rcases updateT_cases u env w with ⟨hu, _⟩ | ⟨e, _, _, he⟩ | ⟨vs, _, hp, o, w', ls, hs, he⟩
  · exact absurd hu hn
  · rw [he] at hok
    cases hok
  · rw [he] at hok ⊢
    have hok : o = .ok () := hok
    subst hok
    obtain ⟨_, hls⟩ := swap_facts u env w w' vs _ ls hs
    have hls : ls = [] := hls
    have hp' := hp
    unfold Updater.plan at hp
    split at hp
    · cases hp
    · rename_i h0
      obtain ⟨r, hr, hp⟩ := except_bind_ok.1 hp
      split at hp
      · cases hp
      · rename_i h1
        split at hp
        · cases hp
        · rename_i h2
          obtain ⟨vs', hv, hp⟩ := except_bind_ok.1 hp
          obtain ⟨urls, e1, e2, e3⟩ := download_said env r u.targets 0 vs' hv
          refine ⟨r, urls, (C46_release env u.version r).1 hr, e2, e3, ?_⟩
          have hpl : u.planLines env = (if u.force = false ∧ u.version = none ∧ isDowngrade env.current r.tag = none then [.uncomparable env.current r.tag] else []) ++ urls.map .downloading := by
            unfold Updater.planLines
            rw [if_neg h0, hr]
            show (if _ then _ else if _ then _ else (if _ then _ else _) ++ _) = _
            rw [if_neg h1, if_neg h2, e1]
            congr 1
            by_cases hc : u.force = false ∧ u.version = none ∧ isDowngrade env.current r.tag = none
            · rw [if_pos hc, if_pos]
              simp [hc.1, hc.2.1, hc.2.2]
            · rw [if_neg hc, if_neg]
              simp only [Bool.and_eq_true, Bool.not_eq_true', beq_iff_eq, Option.isNone_iff_eq_none]
              exact fun h => hc ⟨h.1.1, h.1.2, h.2⟩
          show u.planLines env ++ (ls ++ if Out.ok () = Out.ok () ∧ u.server = true then [UpdLine.serverUpdated] else []) = _
          rw [hpl, hls, List.nil_append, List.append_assoc]
          congr 2
          by_cases hsv : u.server = true
          · rw [if_pos ⟨rfl, hsv⟩, if_pos hsv]
          · rw [if_neg (fun h => hsv h.2), if_neg hsv]

/-- **C127.** An update refuses a downgrade, and says so, exactly if it is not forced, no version was asked for, and the chosen release is lower than the running version. -/
theorem C127_refused_iff (u : Updater) (env : UpdEnv) (w : World) : (∃ c t, .refusedDowngrade c t ∈ (u.updateT env w).2.2) ↔
    u.force = false ∧ u.version = none ∧ ∃ r, ChosenRelease env none r ∧ ¬ UpToDate u env ∧ isDowngrade env.current r.tag = some true := by
  constructor
  · rintro ⟨c, t, h⟩
    rcases updateT_lines u env w _ h with (⟨h, _⟩ | ⟨r, hr, hu, ⟨h, hf, hv, hd, _⟩ | ⟨h, _⟩ | ⟨t, ht, url', h, ha⟩⟩) | ⟨n, h⟩ | ⟨n, l, h⟩ | h
    · cases h
    · exact ⟨hf, hv, r, hv ▸ hr, hu, hd⟩
    all_goals cases h
  · rintro ⟨hf, hv, r, hr, hu, hd⟩
    have hr' := (C46_release env none r).2 hr
    have e : u.planLines env = [.refusedDowngrade env.current r.tag] := by
      unfold Updater.planLines
      rw [if_neg (by simp [hv]), hv, hr']
      show (if _ then _ else if _ then _ else _) = _
      rw [if_neg (by
        simp only [Bool.and_eq_true, Bool.not_eq_true', beq_iff_eq]
        exact fun h => hu ⟨hf, .inr ⟨r, hv ▸ hr, h.2.symm⟩⟩), if_pos (by simp [hf, hd])]
    refine ⟨env.current, r.tag, ?_⟩
    rcases updateT_cases u env w with ⟨hu', _⟩ | ⟨_, _, _, he⟩ | ⟨vs, _, _, o, w', ls, _, he⟩
    · exact absurd hu' hu
    · rw [he, e]
      exact List.mem_singleton.2 rfl
    · rw [he, e]
      exact List.mem_append_left _ (List.mem_singleton.2 rfl)

/-! ### Refutations of the unrestricted C127 -/

/-- **C127 is false** if backing up a binary fails: the error says the binary was rolled back, no line says otherwise, and the binary, which was there before, is gone. -/
theorem C127_rolled_back_untrue : ∃ (u : Updater) (env : UpdEnv) (w : World) (f : File) (n : List Char), w.fs (u.binPath ++ "/".toList ++ n) = some f ∧
    (∃ m l, (u.updateT env w).2.2.getLast? = some (.failedApplying m l) ∧ n ∈ l) ∧ (∀ m, .notRolledBack m ∉ (u.updateT env w).2.2) ∧
    (u.update env w).2.fs (u.binPath ++ "/".toList ++ n) = none := by
  have hl : (exUpdater.updateT exUpdEnv (exUpdWorld [.ok, .err 0])).2.2 = [.downloading "u/commander-v0.6.0-x86_64-linux".toList, .downloading "u/server-v0.6.0-x86_64-linux".toList,
      .failedApplying "ruroco-commander".toList ["ruroco-commander".toList]] := by decide +kernel
  refine ⟨exUpdater, exUpdEnv, exUpdWorld [.ok, .err 0], exCmdOld, "ruroco-commander".toList, by decide +kernel, ⟨"ruroco-commander".toList, ["ruroco-commander".toList], ?_, ?_⟩, ?_, by decide +kernel⟩
  · rw [hl]; rfl
  · exact List.mem_singleton.2 rfl
  · intro m
    rw [hl]
    intro h
    rcases List.mem_cons.1 h with h | h
    · cases h
    · rcases List.mem_cons.1 h with h | h
      · cases h
      · cases List.mem_singleton.1 h

/-- **C127 is false** if restoring a binary fails: one line says that it could not be rolled back, the next that it was; it is the new one. -/
theorem C127_both_said : ∃ (u : Updater) (env : UpdEnv) (w : World) (n m : List Char) (l : List (List Char)) (before : List UpdLine),
    (u.updateT env w).2.2 = before ++ [.notRolledBack n, .failedApplying m l] ∧ n ∈ l ∧
    ¬ SameBin ((u.update env w).2.fs (u.binPath ++ "/".toList ++ n)) (w.fs (u.binPath ++ "/".toList ++ n)) :=
  ⟨exUpdater, exUpdEnv, exUpdWorld (List.replicate 24 .ok ++ [.err 0, .ok, .err 0]), "ruroco-server".toList, "ruroco-server".toList, ["ruroco-commander".toList, "ruroco-server".toList],
    [.downloading "u/commander-v0.6.0-x86_64-linux".toList, .downloading "u/server-v0.6.0-x86_64-linux".toList], by decide +kernel, by decide +kernel, by unfold SameBin; decide +kernel⟩

/-! ### Non-vacuity -/

/-- What a successful server update writes. -/
example : (exUpdater.updateT exUpdEnv (exUpdWorld [])).2.2 =
    [.downloading "u/commander-v0.6.0-x86_64-linux".toList, .downloading "u/server-v0.6.0-x86_64-linux".toList, .serverUpdated] := by decide +kernel

/-- Nothing to do. -/
example : (exUpdater.updateT { exUpdEnv with current := "v0.6.0".toList } (exUpdWorld [])).2.2 = [.already "v0.6.0".toList] := by decide +kernel

/-- A downgrade is refused. -/
example : (exUpdater.updateT { exUpdEnv with current := "v0.6.1".toList } (exUpdWorld [])).2.2 = [.refusedDowngrade "v0.6.1".toList "v0.6.0".toList] := by decide +kernel

/-- A version that can not be compared. -/
example : (exUpdater.updateT { exUpdEnv with current := "dev".toList } (exUpdWorld [])).2.2.head? = some (.uncomparable "dev".toList "v0.6.0".toList) := by decide +kernel

/-- The hypotheses of `C127_failure_told_partial`: the owner of the server binary can not be changed; both binaries are restored, and the error says so. -/
example : (exUpdater.update exUpdEnv (exUpdWorld (List.replicate 24 .ok ++ [.err 0]))).1 = .err .io ∧
    Smooth (exUpdater.update exUpdEnv (exUpdWorld (List.replicate 24 .ok ++ [.err 0]))).2.log ∧
    (exUpdater.updateT exUpdEnv (exUpdWorld (List.replicate 24 .ok ++ [.err 0]))).2.2 =
      [.downloading "u/commander-v0.6.0-x86_64-linux".toList, .downloading "u/server-v0.6.0-x86_64-linux".toList,
        .failedApplying "ruroco-server".toList ["ruroco-commander".toList, "ruroco-server".toList]] := by decide +kernel

/-- The text of that error. -/
example : String.ofList (UpdLine.text (fun _ => []) (.failedApplying "ruroco-server".toList ["ruroco-commander".toList, "ruroco-server".toList])) =
    "Update failed while applying ruroco-server; rolled back [\"ruroco-commander\", \"ruroco-server\"]" := by decide +kernel

end Ruroco
