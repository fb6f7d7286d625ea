import Verif.Lemmas.Always
import Verif.Model.Update
import Verif.Spec.Terms.UpdateRun

/-! Contracts of the updater's file operations, for every oracle. -/

namespace Ruroco

/-- Only entries satisfying `P` may differ; the trace grew. -/
structure Touch (P : Path → Prop) (w w' : World) : Prop where
  fs : ∀ q, ¬ P q → w'.fs q = w.fs q
  log : w.log <+: w'.log

theorem touch_pre (P : Path → Prop) : Pre (Touch P) where
  refl _ := ⟨fun _ _ => rfl, List.prefix_refl _⟩
  trans h h' := ⟨fun q hq => (h'.fs q hq).trans (h.fs q hq), h.log.trans h'.log⟩

theorem Touch.mono {P P' : Path → Prop} {w w' : World} (h : Touch P w w') (hp : ∀ q, P q → P' q) : Touch P' w w' :=
  ⟨fun q hq => h.fs q (fun hq' => hq (hp q hq')), h.log⟩

theorem Touch.trans {P : Path → Prop} {a b c : World} (h : Touch P a b) (h' : Touch P b c) : Touch P a c := (touch_pre P).trans h h'

theorem Smooth.pre {l l' : List Event} (h : l <+: l') (hq : Smooth l') : Smooth l := fun p =>
  ⟨fun hm => (hq p).1 (h.subset hm), fun hm => (hq p).2.1 (h.subset hm), fun hm => (hq p).2.2 (h.subset hm)⟩

theorem pathExists_spec (p : Path) (w : World) : wp (pathExists p) w (fun o w' => w'.fs = w.fs ∧ w.log <+: w'.log ∧ (∀ e, o ≠ .err e) ∧
    ∀ b, o = .ok b → b = (w.fs p).isSome ∨ (b = false ∧ .statFailed p ∈ w'.log)) := by
  unfold pathExists
  rw [wp_bind, wp_attempt]
  refine wp_atomicCall _ _ _ _ (fun o => ?_) (fun o => ?_) (fun o => ?_) (fun o => ?_)
  · simp only [id]
    rw [wp_bind, wp_peek]
    simp only
    rw [wp_pure]
    refine ⟨rfl, List.prefix_append _ _, nofun, ?_⟩
    intro b hb
    cases hb
    exact Or.inl rfl
  · simp only
    rw [wp_bind, wp_note]
    simp only
    rw [wp_pure]
    refine ⟨rfl, ?_, nofun, ?_⟩
    · simp only [List.append_assoc]
      exact List.prefix_append _ _
    · intro b hb
      cases hb
      exact Or.inr ⟨rfl, by simp⟩
  · exact ⟨rfl, List.prefix_append _ _, nofun, nofun⟩
  · exact ⟨rfl, List.prefix_append _ _, nofun, nofun⟩

/-! ## Backup -/

/-- `fs::copy`: at every outcome the source is untouched and the destination unchanged or holding a prefix of the source. -/
structure Copied (src dst : Path) (o : Out Unit) (w w' : World) : Prop where
  touch : Touch (· = dst) w w'
  prov : w'.fs dst = w.fs dst ∨ ∃ b g, w'.fs dst = some b ∧ w.fs src = some g ∧ b.data <+: g.data
  done : o = .ok () → ∃ b g, w'.fs dst = some b ∧ w.fs src = some g ∧ b.data = g.data ∧ b.mode = g.mode ∧ b.owner = copyOwner (w.fs dst)

theorem writeAll_spec (p : Path) (bs : List Byte) (w : World) (f : File) (hf : w.fs p = some f) :
    wp (writeAll p bs) w (fun o w' => Touch (· = p) w w' ∧ ∃ b, w'.fs p = some b ∧ b.mode = f.mode ∧ b.owner = f.owner ∧ (∃ k, b.data = f.data ++ bs.take k) ∧
      (o = .ok () → b.data = f.data ++ bs)) := by
  have key : ∀ (o : List Choice) (c : List Byte),
      Touch (· = p) w (({ w with log := w.log ++ [.file .write p], oracle := o } : World).append p c) ∧
      (({ w with log := w.log ++ [.file .write p], oracle := o } : World).append p c).fs p = some { f with data := f.data ++ c, synced := false } := by
    intro o c
    have h := append_frame ({ w with log := w.log ++ [.file .write p], oracle := o } : World) p c
    refine ⟨⟨h.1, ?_⟩, ?_⟩
    · rw [h.2.2.2.2]
      exact List.prefix_append _ _
    · simp [World.append, hf, World.setFile]
  unfold wp writeAll syscall
  rcases h : w.oracle with _ | ⟨c, o⟩
  · exact ⟨(key [] bs).1, _, (key [] bs).2, rfl, rfl, ⟨bs.length, by simp⟩, fun _ => rfl⟩
  · cases c with
    | ok => exact ⟨(key o bs).1, _, (key o bs).2, rfl, rfl, ⟨bs.length, by simp⟩, fun _ => rfl⟩
    | err k => exact ⟨(key o _).1, _, (key o _).2, rfl, rfl, ⟨k, rfl⟩, nofun⟩
    | crash k => exact ⟨(key o _).1, _, (key o _).2, rfl, rfl, ⟨k, rfl⟩, nofun⟩

theorem copyFile_spec (src dst : Path) (w : World) : wp (copyFile src dst) w (fun o w' => Copied src dst o w w') := by
  unfold copyFile
  rw [wp_bind]
  have same : ∀ (o : List Choice) (out : Out Unit), out ≠ .ok () → Copied src dst out w { w with log := w.log ++ [.file .read src], oracle := o } :=
    fun o out ho => ⟨⟨fun _ _ => rfl, List.prefix_append _ _⟩, Or.inl rfl, fun h => absurd h ho⟩
  refine wp_atomicCall _ _ _ _ (fun o => ?_) (fun o => same o _ nofun) (fun o => same o _ nofun) (fun o => same o _ nofun)
  simp only [id]
  rw [wp_bind, wp_peek]
  simp only
  cases hf : w.fs src with
  | none => exact same o _ nofun
  | some f =>
    simp only
    rw [wp_bind]
    have hcreated : ∀ (o' : List Choice) (g : File), g.data = [] → ∀ out : Out Unit, out ≠ .ok () →
        Copied src dst out w (World.setEntry { w with log := (w.log ++ [.file .read src]) ++ [.file .copy dst], oracle := o' } dst (some g)) := by
      intro o' g hg out ho
      refine ⟨⟨fun q hq => by simp [World.setEntry, hq], ?_⟩, Or.inr ⟨g, f, by simp [World.setEntry], hf, by rw [hg]; exact List.nil_prefix⟩, fun h => absurd h ho⟩
      simp only [World.setEntry, List.append_assoc]
      exact List.prefix_append _ _
    have same2 : ∀ (o' : List Choice) (out : Out Unit), out ≠ .ok () →
        Copied src dst out w { w with log := (w.log ++ [.file .read src]) ++ [.file .copy dst], oracle := o' } := by
      intro o' out ho
      refine ⟨⟨fun _ _ => rfl, ?_⟩, Or.inl rfl, fun h => absurd h ho⟩
      simp only [List.append_assoc]
      exact List.prefix_append _ _
    refine wp_atomicCall _ _ _ _ (fun o' => ?_) (fun o' => same2 o' _ nofun) (fun o' => same2 o' _ nofun) (fun o' => hcreated o' _ rfl _ nofun)
    simp only
    have hc := hcreated o' ⟨[], (match w.fs dst with | some g => g.mode | none => f.mode - (f.mode &&& w.umask)), false,
      (match w.fs dst with | some g => g.owner | none => .creator)⟩ rfl .crash nofun
    generalize hw2 : World.setEntry _ dst _ = w2 at hc ⊢
    have hfs2 : ∃ g, w2.fs dst = some g ∧ g.data = [] ∧ g.owner = copyOwner (w.fs dst) := by
      rw [← hw2]
      refine ⟨_, if_pos rfl, rfl, ?_⟩
      unfold copyOwner
      rfl
    obtain ⟨g, hg, hgd, hgo⟩ := hfs2
    rw [wp_bind]
    unfold chmod
    rw [wp_bind, wp_peek, hg]
    simp only
    have hch : ∀ (o2 : List Choice) (g' : File), g'.data = [] → ∀ out : Out Unit, out ≠ .ok () →
        Copied src dst out w (World.setFile { w2 with log := w2.log ++ [.file .chmod dst], oracle := o2 } dst (some g')) := by
      intro o2 g' hg' out ho
      refine ⟨⟨fun q hq => ?_, hc.touch.log.trans (List.prefix_append _ _)⟩, Or.inr ⟨g', f, by simp [World.setFile], hf, by rw [hg']; exact List.nil_prefix⟩, fun h => absurd h ho⟩
      simp only [World.setFile, if_neg hq]
      exact hc.touch.fs q hq
    have same3 : ∀ (o2 : List Choice) (out : Out Unit), out ≠ .ok () → Copied src dst out w { w2 with log := w2.log ++ [.file .chmod dst], oracle := o2 } :=
      fun o2 out ho => ⟨⟨hc.touch.fs, hc.touch.log.trans (List.prefix_append _ _)⟩, hc.prov, fun h => absurd h ho⟩
    refine wp_atomicCall _ _ _ _ (fun o2 => ?_) (fun o2 => same3 o2 _ nofun) (fun o2 => same3 o2 _ nofun) (fun o2 => hch o2 { g with mode := f.mode } hgd .crash nofun)
    have h3 := hch o2 { g with mode := f.mode } hgd .crash nofun
    have hg3 : (World.setFile { w2 with log := w2.log ++ [.file .chmod dst], oracle := o2 } dst (some { g with mode := f.mode })).fs dst =
        some { g with mode := f.mode } := if_pos rfl
    simp only
    generalize World.setFile _ dst _ = w3 at h3 hg3 ⊢
    refine wp_mono (writeAll_spec dst f.data w3 _ hg3) ?_
    rintro o4 w4 ⟨ht, b, hb, hm, hown, ⟨k, hk⟩, hok⟩
    refine ⟨h3.touch.trans ht, Or.inr ⟨b, f, hb, hf, ?_⟩, fun ho => ⟨b, f, hb, hf, ?_, hm, hown.trans hgo⟩⟩
    · rw [hk]
      simp only [hgd, List.nil_append]
      exact List.take_prefix _ _
    · rw [hok ho]
      simp [hgd]

theorem backupBin_spec (t : Path) (w : World) : wp (backupBin t) w (fun o w' => Copied t (oldPath t) o w w' ∧
    (∀ e, o = .err e → .copyFailed t ∈ w'.log)) := by
  unfold backupBin
  rw [wp_bind, wp_attempt]
  refine wp_mono (copyFile_spec t (oldPath t) w) ?_
  intro o w1 h
  cases o with
  | ok u => exact ⟨h, nofun⟩
  | crash => exact ⟨h, nofun⟩
  | err e =>
    simp only
    rw [wp_bind, wp_note]
    simp only
    rw [wp_throw]
    exact ⟨⟨⟨h.touch.fs, h.touch.log.trans (List.prefix_append _ _)⟩, h.prov, nofun⟩, fun e _ => by simp⟩

/-! ## Names -/

theorem target_ne_old (t : Path) : t ≠ oldPath t := by
  intro h
  have := congrArg List.length h
  simp [oldPath] at this

theorem old_not_tmp (t s : Path) : ¬ IsTmpOf s (oldPath t) := by
  rintro ⟨n, h⟩
  have := congrArg List.getLast? h
  revert this
  unfold oldPath tmpPath
  rw [show ".old".toList = ".ol".toList ++ ['d'] from rfl, ← List.append_assoc, List.getLast?_concat,
    show s ++ ('.' :: (toString n.toNat).toList ++ ".tmp".toList) = (s ++ ('.' :: (toString n.toNat).toList ++ ".tm".toList)) ++ ['p'] by simp,
    List.getLast?_concat]
  decide

theorem old_inj {t s : Path} (h : oldPath t = oldPath s) : t = s := List.append_cancel_right h

theorem binFile_inj {dir a b : Path} (h : binFile dir a = binFile dir b) : a = b := by
  unfold binFile at h
  have := List.append_cancel_left h
  cases this
  rfl

theorem binFile_not_old {dir a b : Path} (ha : '.' ∉ a) : binFile dir a ≠ oldPath (binFile dir b) := by
  unfold binFile oldPath
  intro h
  rw [List.append_assoc] at h
  have := List.append_cancel_left h
  simp only [List.cons_append] at this
  cases this
  exact ha (by simp)

theorem binFile_not_tmp {dir a b : Path} (ha : '.' ∉ a) : ¬ IsTmpOf (binFile dir b) (binFile dir a) := by
  rintro ⟨n, h⟩
  unfold binFile tmpPath at h
  rw [List.append_assoc] at h
  have := List.append_cancel_left h
  simp only [List.cons_append] at this
  cases this
  exact ha (by simp)

/-! ## Installing one binary -/

/-- What `save_bin` may touch. -/
def Region (t q : Path) : Prop := q = t ∨ q = oldPath t ∨ IsTmpOf t q

/-- The binary `v` is in place. -/
def InPlace (t : Path) (v : Verified) (w : World) : Prop :=
  ∃ f, w.fs t = some f ∧ f.data = v.bytes ∧ f.mode = v.mode ∧ ∀ u, v.owner = some u → u ≠ [] → f.owner = ⟨u, u⟩

/-- The backup of `t` holds what was at `t` in `w0`; if nothing was, it is what it was. -/
def Restorable (t : Path) (w0 w : World) : Prop :=
  (∀ g, w0.fs t = some g → ∃ b, w.fs (oldPath t) = some b ∧ b.data = g.data ∧ b.mode = g.mode ∧ b.owner = copyOwner (w0.fs (oldPath t))) ∧ (w0.fs t = none → w.fs (oldPath t) = w0.fs (oldPath t))

/-- Where the backup comes from at any outcome. -/
def BackupFrom (t : Path) (w0 w : World) : Prop :=
  w.fs (oldPath t) = w0.fs (oldPath t) ∨ ∃ b g, w.fs (oldPath t) = some b ∧ w0.fs t = some g ∧ b.data <+: g.data

structure SavedBin (t : Path) (v : Verified) (o : Out Unit) (w w' : World) : Prop where
  touch : Touch (Region t) w w'
  target : w'.fs t = w.fs t ∨ ∃ f, w'.fs t = some f ∧ f.data = v.bytes
  backup : BackupFrom t w w'
  quiet : Smooth w'.log → o ≠ .crash → Restorable t w w'
  done : o = .ok () → InPlace t v w'

theorem saveBin_spec (dir : Path) (names : Bool) (v : Verified) (w : World) :
    wp (saveBin dir names v) w (fun o w' => SavedBin (binFile dir v.name) v o w w') := by
  have hto : binFile dir v.name ≠ oldPath (binFile dir v.name) := target_ne_old _
  unfold saveBin
  generalize binFile dir v.name = t at hto ⊢
  -- after the backup step
  have rest : ∀ w1 : World, Touch (· = oldPath t) w w1 → BackupFrom t w w1 → (Smooth w1.log → Restorable t w w1) →
      wp (do writeAtomicWithMode t v.bytes (some v.mode)
             match v.owner with
             | some ug => changeOwnership t ug ug names
             | none => pure ()) w1 (fun o w' => SavedBin t v o w w') := by
    intro w1 h1 hb hq
    have ht1 : w1.fs t = w.fs t := h1.fs t hto
    rw [wp_bind]
    refine wp_mono (writeAtomicWithMode_spec t v.bytes (some v.mode) w1) ?_
    intro o w2 h2
    have hold2 : w2.fs (oldPath t) = w1.fs (oldPath t) := (h2.frame _ (Ne.symm hto) (old_not_tmp t t)).1
    have hlog2 : w1.log <+: w2.log := by
      obtain ⟨l, hl, _⟩ := h2.log
      rw [hl]
      exact List.prefix_append _ _
    have touch2 : Touch (Region t) w w2 := by
      refine (h1.mono (fun q hq => Or.inr (Or.inl hq))).trans ⟨fun q hq => ?_, hlog2⟩
      exact (h2.frame q (fun h => hq (Or.inl h)) (fun h => hq (Or.inr (Or.inr h)))).1
    have hb2 : BackupFrom t w w2 := by
      unfold BackupFrom
      rw [hold2]
      exact hb
    have hq2 : Smooth w2.log → Restorable t w w2 := by
      intro hq'
      unfold Restorable
      rw [hold2]
      exact hq (hq'.pre hlog2)
    have htgt2 : w2.fs t = w.fs t ∨ ∃ f, w2.fs t = some f ∧ f.data = v.bytes := by
      rcases h2.result with ⟨h, _⟩ | ⟨⟨f, hf, hd, _⟩, _⟩
      · exact Or.inl (h.trans ht1)
      · exact Or.inr ⟨f, hf, hd⟩
    cases o with
    | err e => exact ⟨touch2, htgt2, hb2, fun h _ => hq2 h, nofun⟩
    | crash => exact ⟨touch2, htgt2, hb2, fun h _ => hq2 h, nofun⟩
    | ok u =>
      simp only
      have hin : ∃ f, w2.fs t = some f ∧ f.data = v.bytes ∧ f.mode = v.mode := by
        rcases h2.result with ⟨_, _, h⟩ | ⟨⟨f, hf, hd, _, hm⟩, _⟩
        · exact absurd rfl h
        · exact ⟨f, hf, hd, hm _ rfl⟩
      obtain ⟨f, hf, hd, hm⟩ := hin
      cases hown : v.owner with
      | none =>
        simp only
        rw [wp_pure]
        exact ⟨touch2, htgt2, hb2, fun h _ => hq2 h, fun _ => ⟨f, hf, hd, hm, by rw [hown]; nofun⟩⟩
      | some ug =>
        simp only
        unfold changeOwnership
        split
        · exact ⟨touch2, htgt2, hb2, fun h _ => hq2 h, nofun⟩
        · unfold chown
          rw [wp_bind, wp_peek, hf]
          simp only
          have same : ∀ (o : List Choice) (out : Out Unit), out ≠ .ok () → SavedBin t v out w { w2 with log := w2.log ++ [.file .chown t], oracle := o } := by
            intro o out ho
            exact ⟨touch2.trans ⟨fun _ _ => rfl, List.prefix_append _ _⟩, htgt2, hb2, fun h _ => hq2 (h.pre (List.prefix_append _ _)), fun h => absurd h ho⟩
          have eff : ∀ (o : List Choice) (out : Out Unit), SavedBin t v out w
              (World.setFile { w2 with log := w2.log ++ [.file .chown t], oracle := o } t (some { f with owner := f.owner.change ug ug })) := by
            intro o out
            have hold3 : (World.setFile { w2 with log := w2.log ++ [.file .chown t], oracle := o } t (some { f with owner := f.owner.change ug ug })).fs (oldPath t) =
              w2.fs (oldPath t) := if_neg (Ne.symm hto)
            refine ⟨touch2.trans ⟨fun q hq => if_neg (fun h => hq (Or.inl h)), List.prefix_append _ _⟩, Or.inr ⟨_, if_pos rfl, hd⟩, ?_, ?_, ?_⟩
            · unfold BackupFrom
              rw [hold3]
              exact hb2
            · intro h _
              unfold Restorable
              rw [hold3]
              exact hq2 (h.pre (List.prefix_append _ _))
            · intro _
              refine ⟨_, if_pos rfl, hd, hm, ?_⟩
              intro u hu hne
              rw [hown] at hu
              cases hu
              simp [Owner.change, hne]
          exact wp_atomicCall _ _ _ _ (fun o => eff o _) (fun o => same o _ nofun) (fun o => same o _ nofun) (fun o => eff o _)
  simp only
  rw [wp_bind]
  refine wp_mono (pathExists_spec t w) ?_
  rintro o w1 ⟨hfs, hlog, hnerr, hb⟩
  have touch1 : ∀ P, Touch P w w1 := fun P => ⟨fun q _ => by rw [hfs], hlog⟩
  cases o with
  | err e => exact absurd rfl (hnerr e)
  | crash => exact ⟨touch1 _, Or.inl (by rw [hfs]), Or.inl (by rw [hfs]), fun _ h => absurd rfl h, nofun⟩
  | ok b =>
    simp only
    cases b with
    | false =>
      rw [if_neg (by decide)]
      refine rest w1 (touch1 _) (Or.inl (by rw [hfs])) ?_
      intro hq
      rcases hb false rfl with h | ⟨_, h⟩
      · have hn : w.fs t = none := by simpa using h.symm
        exact ⟨by rw [hn]; nofun, fun _ => by rw [hfs]⟩
      · exact absurd h (hq t).1
    | true =>
      rw [if_pos rfl, wp_bind]
      refine wp_mono (backupBin_spec t w1) ?_
      rintro o w2 ⟨h2, hfail⟩
      have t2 : Touch (· = oldPath t) w w2 := (touch1 _).trans h2.touch
      have b2 : BackupFrom t w w2 := by
        have := h2.prov
        rw [hfs] at this
        exact this
      have same : w2.fs t = w.fs t := t2.fs t hto
      cases o with
      | err e =>
        exact ⟨t2.mono (fun q h => Or.inr (Or.inl h)), Or.inl same, b2, fun hq _ => absurd (hfail e rfl) (hq t).2.1, nofun⟩
      | crash => exact ⟨t2.mono (fun q h => Or.inr (Or.inl h)), Or.inl same, b2, fun _ h => absurd rfl h, nofun⟩
      | ok u =>
        refine rest w2 t2 b2 ?_
        intro _
        obtain ⟨b, g, hb', hg, hd, hm, hown⟩ := h2.done rfl
        rw [hfs] at hg hown
        refine ⟨fun g' hg' => ?_, fun hn => ?_⟩
        · rw [hg] at hg'
          cases hg'
          exact ⟨b, hb', hd, hm, hown⟩
        · rw [hn] at hg
          cases hg

/-! ## Rolling back -/

structure RolledBack (t : Path) (o : Out Unit) (w w' : World) : Prop where
  touch : Touch (fun q => q = t ∨ q = oldPath t) w w'
  target : w'.fs t = w.fs t ∨ w'.fs t = w.fs (oldPath t) ∨ w'.fs t = none
  backup : w'.fs (oldPath t) = w.fs (oldPath t) ∨ w'.fs (oldPath t) = none
  quiet : Smooth w'.log → (w'.fs t = w.fs t ∧ o ≠ .ok ()) ∨ w'.fs t = w.fs (oldPath t)

theorem rollbackBin_spec (dir name : Path) (w : World) : wp (rollbackBin dir name) w (fun o w' => RolledBack (binFile dir name) o w w') := by
  have hto : binFile dir name ≠ oldPath (binFile dir name) := target_ne_old _
  unfold rollbackBin
  generalize binFile dir name = t at hto ⊢
  simp only
  rw [wp_bind]
  have unchanged : ∀ (o : Out Unit) (w' : World), o ≠ .ok () → w'.fs = w.fs → w.log <+: w'.log → RolledBack t o w w' := by
    intro o w' ho hfs hl
    exact ⟨⟨fun q _ => by rw [hfs], hl⟩, Or.inl (by rw [hfs]), Or.inl (by rw [hfs]), fun _ => Or.inl ⟨by rw [hfs], ho⟩⟩
  refine wp_mono (pathExists_spec (oldPath t) w) ?_
  rintro o w1 ⟨hfs, hlog, hnerr, hb⟩
  cases o with
  | err e => exact absurd rfl (hnerr e)
  | crash => exact unchanged _ _ nofun hfs hlog
  | ok b =>
    simp only
    cases b with
    | true =>
      rw [if_pos rfl]
      have hsome : ∃ f, w.fs (oldPath t) = some f := by
        rcases hb true rfl with h | ⟨h, _⟩
        · exact Option.isSome_iff_exists.1 h.symm
        · cases h
      obtain ⟨f, hf⟩ := hsome
      rw [wp_rename_some _ _ _ f (by rw [hfs]; exact hf)]
      have same : ∀ (o : List Choice) (out : Out Unit), out ≠ .ok () → RolledBack t out w { w1 with log := w1.log ++ [.file .rename t], oracle := o } :=
        fun o out ho => unchanged _ _ ho hfs (hlog.trans (List.prefix_append _ _))
      have eff : ∀ (o : List Choice) (out : Out Unit), RolledBack t out w
          ((World.setEntry { w1 with log := w1.log ++ [.file .rename t], oracle := o } t (some f)).setEntry (oldPath t) none) := by
        intro o out
        have hft : ((World.setEntry { w1 with log := w1.log ++ [.file .rename t], oracle := o } t (some f)).setEntry (oldPath t) none).fs t = w.fs (oldPath t) := by
          simp [World.setEntry, hto, hf]
        refine ⟨⟨fun q hq => ?_, hlog.trans (List.prefix_append _ _)⟩, Or.inr (Or.inl hft), Or.inr (by simp [World.setEntry]), fun _ => Or.inr hft⟩
        simp only [not_or] at hq
        simp [World.setEntry, hq.1, hq.2, hfs]
      exact wp_atomicCall _ _ _ _ (fun o => eff o _) (fun o => same o _ nofun) (fun o => same o _ nofun) (fun o => eff o _)
    | false =>
      rw [if_neg (by decide), wp_bind]
      have hnone : Smooth w1.log → w.fs (oldPath t) = none := by
        intro hq
        rcases hb false rfl with h | ⟨_, h⟩
        · simpa using h.symm
        · exact absurd h (hq _).1
      refine wp_mono (pathExists_spec t w1) ?_
      rintro o w2 ⟨hfs2, hlog2, hnerr2, hb2⟩
      have hfs' : w2.fs = w.fs := hfs2.trans hfs
      have hlog' := hlog.trans hlog2
      cases o with
      | err e => exact absurd rfl (hnerr2 e)
      | crash => exact unchanged _ _ nofun hfs' hlog'
      | ok b =>
        simp only
        cases b with
        | false =>
          rw [if_neg (by decide), wp_pure]
          refine ⟨⟨fun q _ => by rw [hfs'], hlog'⟩, Or.inl (by rw [hfs']), Or.inl (by rw [hfs']), fun hq => Or.inr ?_⟩
          rw [hnone (hq.pre hlog2), hfs2]
          rcases hb2 false rfl with h | ⟨_, h⟩
          · simpa using h.symm
          · exact absurd h (hq _).1
        | true =>
          rw [if_pos rfl]
          have hsome : ∃ f, w2.fs t = some f := by
            rw [hfs2]
            rcases hb2 true rfl with h | ⟨h, _⟩
            · exact Option.isSome_iff_exists.1 h.symm
            · cases h
          obtain ⟨f, hf⟩ := hsome
          unfold removeFile
          rw [wp_bind, wp_peek, hf]
          simp only
          have same : ∀ (o : List Choice) (out : Out Unit), out ≠ .ok () → RolledBack t out w { w2 with log := w2.log ++ [.file .remove t], oracle := o } :=
            fun o out ho => unchanged _ _ ho hfs' (hlog'.trans (List.prefix_append _ _))
          have eff : ∀ (o : List Choice) (out : Out Unit), RolledBack t out w (World.setEntry { w2 with log := w2.log ++ [.file .remove t], oracle := o } t none) := by
            intro o out
            have hft : (World.setEntry { w2 with log := w2.log ++ [.file .remove t], oracle := o } t none).fs t = none := if_pos rfl
            refine ⟨⟨fun q hq => ?_, hlog'.trans (List.prefix_append _ _)⟩, Or.inr (Or.inr hft), Or.inl ?_, fun hq => Or.inr ?_⟩
            · simp only [not_or] at hq
              simp [World.setEntry, hq.1, hfs']
            · simp [World.setEntry, Ne.symm hto, hfs']
            · rw [hft, hnone (hq.pre (hlog2.trans (List.prefix_append _ _)))]
          exact wp_atomicCall _ _ _ _ (fun o => eff o _) (fun o => same o _ nofun) (fun o => same o _ nofun) (fun o => eff o _)

structure RolledAll (dir : Path) (ns : List (List Char)) (o : Out Unit) (w w' : World) : Prop where
  touch : Touch (fun q => ∃ n ∈ ns, q = binFile dir n ∨ q = oldPath (binFile dir n)) w w'
  noErr : ∀ e, o ≠ .err e
  target : ∀ n ∈ ns, w'.fs (binFile dir n) = w.fs (binFile dir n) ∨ w'.fs (binFile dir n) = w.fs (oldPath (binFile dir n)) ∨ w'.fs (binFile dir n) = none
  backup : ∀ n ∈ ns, w'.fs (oldPath (binFile dir n)) = w.fs (oldPath (binFile dir n)) ∨ w'.fs (oldPath (binFile dir n)) = none
  quiet : Smooth w'.log → ∀ n ∈ ns, (w'.fs (binFile dir n) = w.fs (binFile dir n) ∧ o ≠ .ok ()) ∨ w'.fs (binFile dir n) = w.fs (oldPath (binFile dir n))

theorem rollbackAll_spec (dir : Path) (ns : List (List Char)) (hnd : ns.Nodup) (hdot : ∀ n ∈ ns, '.' ∉ n) (w : World) :
    wp (rollbackAll dir ns) w (fun o w' => RolledAll dir ns o w w') := by
  induction ns generalizing w with
  | nil => exact ⟨(touch_pre _).refl w, nofun, nofun, nofun, fun _ => nofun⟩
  | cons n ns ih =>
    obtain ⟨hn, hnd'⟩ := List.nodup_cons.1 hnd
    unfold rollbackAll
    rw [wp_bind, wp_attempt]
    -- entries of another name are outside the region of `n`
    have other : ∀ m ∈ ns, ∀ w1 : World, Touch (fun q => q = binFile dir n ∨ q = oldPath (binFile dir n)) w w1 →
        w1.fs (binFile dir m) = w.fs (binFile dir m) ∧ w1.fs (oldPath (binFile dir m)) = w.fs (oldPath (binFile dir m)) := by
      intro m hm w1 ht
      have hmn : m ≠ n := fun h => hn (h ▸ hm)
      refine ⟨ht.fs _ ?_, ht.fs _ ?_⟩
      · rintro (h | h)
        · exact hmn (binFile_inj h)
        · exact binFile_not_old (hdot m (List.mem_cons_of_mem _ hm)) h
      · rintro (h | h)
        · exact binFile_not_old (hdot n List.mem_cons_self) h.symm
        · exact hmn (binFile_inj (old_inj h))
    have self : ∀ w1 w2 : World, Touch (fun q => ∃ m ∈ ns, q = binFile dir m ∨ q = oldPath (binFile dir m)) w1 w2 →
        w2.fs (binFile dir n) = w1.fs (binFile dir n) ∧ w2.fs (oldPath (binFile dir n)) = w1.fs (oldPath (binFile dir n)) := by
      intro w1 w2 ht
      refine ⟨ht.fs _ ?_, ht.fs _ ?_⟩
      · rintro ⟨m, hm, h | h⟩
        · exact hn (binFile_inj h ▸ hm)
        · exact binFile_not_old (hdot n List.mem_cons_self) h
      · rintro ⟨m, hm, h | h⟩
        · exact binFile_not_old (hdot m (List.mem_cons_of_mem _ hm)) h.symm
        · exact hn (binFile_inj (old_inj h) ▸ hm)
    -- the rest of the list, `w1` being the world after rolling back `n`
    have go : ∀ (o1 : Out Unit) (w1 : World), RolledBack (binFile dir n) o1 w w1 → (o1 ≠ .ok () → ¬ Smooth w1.log) →
        wp (rollbackAll dir ns) w1 (fun o w' => RolledAll dir (n :: ns) o w w') := by
      intro o1 w1 h1 hbad
      refine wp_mono (ih hnd' (fun m hm => hdot m (List.mem_cons_of_mem _ hm)) w1) ?_
      intro o w2 h2
      have hs := self _ _ h2.touch
      refine ⟨?_, h2.noErr, ?_, ?_, ?_⟩
      · refine (h1.touch.mono (fun q hq => ⟨n, List.mem_cons_self, hq⟩)).trans (h2.touch.mono ?_)
        rintro q ⟨m, hm, hq⟩
        exact ⟨m, List.mem_cons_of_mem _ hm, hq⟩
      · intro m hm
        rcases List.mem_cons.1 hm with rfl | hm
        · rw [hs.1]
          exact h1.target
        · have := h2.target m hm
          rw [(other m hm w1 h1.touch).1, (other m hm w1 h1.touch).2] at this
          exact this
      · intro m hm
        rcases List.mem_cons.1 hm with rfl | hm
        · rw [hs.2]
          exact h1.backup
        · have := h2.backup m hm
          rw [(other m hm w1 h1.touch).2] at this
          exact this
      · intro hq m hm
        rcases List.mem_cons.1 hm with rfl | hm
        · rw [hs.1]
          have hq1 := hq.pre h2.touch.log
          rcases h1.quiet hq1 with ⟨_, h⟩ | h
          · exact absurd hq1 (hbad h)
          · exact Or.inr h
        · have := h2.quiet hq m hm
          rw [(other m hm w1 h1.touch).1, (other m hm w1 h1.touch).2] at this
          exact this
    refine wp_mono (rollbackBin_spec dir n w) ?_
    intro o w1 h1
    cases o with
    | crash =>
      refine ⟨h1.touch.mono (fun q hq => ⟨n, List.mem_cons_self, hq⟩), nofun, ?_, ?_, ?_⟩
      · intro m hm
        rcases List.mem_cons.1 hm with rfl | hm
        · exact h1.target
        · exact Or.inl (other m hm w1 h1.touch).1
      · intro m hm
        rcases List.mem_cons.1 hm with rfl | hm
        · exact h1.backup
        · exact Or.inl (other m hm w1 h1.touch).2
      · intro hq m hm
        rcases List.mem_cons.1 hm with rfl | hm
        · exact h1.quiet hq
        · exact Or.inl ⟨(other m hm w1 h1.touch).1, nofun⟩
    | ok u =>
      simp only
      exact go _ _ h1 (fun h => absurd rfl h)
    | err e =>
      simp only
      rw [wp_bind, wp_note]
      simp only
      refine go (.err e) _ ⟨h1.touch.trans ⟨fun _ _ => rfl, List.prefix_append _ _⟩, h1.target, h1.backup, fun hq => h1.quiet (hq.pre (List.prefix_append _ _))⟩ ?_
      intro _ hq
      exact (hq (binFile dir n)).2.2 (by simp)

/-! ## Everything -/

theorem SameBin.of_eq {a b : Option File} (h : a = b) : SameBin a b := by rw [h]; rfl

/-- Where the file at `t` comes from at any outcome: absent, the verified download, a prefix of what was there before, or an earlier backup. -/
def TargetFrom (t : Path) (v : Verified) (w0 w : World) : Prop :=
  ∀ f, w.fs t = some f → f.data = v.bytes ∨ (∃ g, w0.fs t = some g ∧ f.data <+: g.data) ∨ w0.fs (oldPath t) = some f

/-- An update attempt on `all`, from `w0`. -/
structure Swapped (dir : Path) (all : List Verified) (o : Out Unit) (w0 w : World) : Prop where
  touch : Touch (fun q => ∃ v ∈ all, Region (binFile dir v.name) q) w0 w
  target : ∀ v ∈ all, TargetFrom (binFile dir v.name) v w0 w
  backup : ∀ v ∈ all, w.fs (oldPath (binFile dir v.name)) = none ∨ BackupFrom (binFile dir v.name) w0 w
  done : o = .ok () → ∀ v ∈ all, InPlace (binFile dir v.name) v w ∧ (Smooth w.log → Restorable (binFile dir v.name) w0 w)
  undone : Smooth w.log → ∀ v ∈ all, (w0.fs (binFile dir v.name) = none → w0.fs (oldPath (binFile dir v.name)) = none) →
    (∀ e, o = .err e → SameBin (w.fs (binFile dir v.name)) (w0.fs (binFile dir v.name)) ∧
      (w.fs (binFile dir v.name) = w0.fs (binFile dir v.name) ∨ ∀ f, w.fs (binFile dir v.name) = some f → f.owner = copyOwner (w0.fs (oldPath (binFile dir v.name))))) ∧
    (SameBin (w.fs (binFile dir v.name)) (w0.fs (binFile dir v.name)) ∨ ∃ f, w.fs (binFile dir v.name) = some f ∧ f.data = v.bytes)

/-- The state in the middle of an update: `done` are in place, `rest` untouched. -/
structure Midway (dir : Path) (done rest : List Verified) (w0 w : World) : Prop where
  touch : Touch (fun q => ∃ v ∈ done, Region (binFile dir v.name) q) w0 w
  inPlace : ∀ v ∈ done, InPlace (binFile dir v.name) v w
  backup : ∀ v ∈ done, BackupFrom (binFile dir v.name) w0 w
  quiet : Smooth w.log → ∀ v ∈ done, Restorable (binFile dir v.name) w0 w

theorem region_apart {dir : Path} {a b : List Char} (hne : a ≠ b) (ha : '.' ∉ a) (hb : '.' ∉ b) :
    ¬ Region (binFile dir a) (binFile dir b) ∧ ¬ Region (binFile dir a) (oldPath (binFile dir b)) := by
  refine ⟨?_, ?_⟩
  · rintro (h | h | h)
    · exact hne (binFile_inj h).symm
    · exact binFile_not_old hb h
    · exact binFile_not_tmp hb h
  · rintro (h | h | h)
    · exact binFile_not_old ha h.symm
    · exact hne (binFile_inj (old_inj h)).symm
    · exact old_not_tmp _ _ h

theorem swapAll_spec (dir : Path) (names : Bool) (all : List Verified) (hdot : ∀ v ∈ all, '.' ∉ v.name) (w0 : World) (vs done : List Verified)
    (hmem : ∀ v, v ∈ all ↔ v ∈ done ∨ v ∈ vs) (hnd : (done.map (·.name) ++ vs.map (·.name)).Nodup) (w : World) (hw : Midway dir done vs w0 w) :
    wp (swapAll dir names (done.map (·.name)) vs) w (fun o w' => Swapped dir all o w0 w') := by
  induction vs generalizing done w with
  | nil =>
    unfold swapAll
    rw [wp_pure]
    have hm : ∀ v, v ∈ all ↔ v ∈ done := by simpa using hmem
    refine ⟨hw.touch.mono ?_, ?_, ?_, ?_, ?_⟩
    · rintro q ⟨v, hv, hq⟩
      exact ⟨v, (hm v).2 hv, hq⟩
    · intro v hv f hf
      obtain ⟨f', hf', hd, _⟩ := hw.inPlace v ((hm v).1 hv)
      rw [hf] at hf'
      cases hf'
      exact Or.inl hd
    · intro v hv
      exact Or.inr (hw.backup v ((hm v).1 hv))
    · intro _ v hv
      exact ⟨hw.inPlace v ((hm v).1 hv), fun hq => hw.quiet hq v ((hm v).1 hv)⟩
    · intro _ v hv _
      obtain ⟨f', hf', hd, _⟩ := hw.inPlace v ((hm v).1 hv)
      exact ⟨nofun, Or.inr ⟨f', hf', hd⟩⟩
  | cons v vs ih =>
    have hperm : ((v :: done).map (·.name) ++ vs.map (·.name)).Nodup := by
      have := List.perm_middle (a := v.name) (l₁ := done.map (·.name)) (l₂ := vs.map (·.name))
      exact this.nodup_iff.1 hnd
    have hvall : v ∈ all := (hmem v).2 (Or.inr List.mem_cons_self)
    have hneAll : ∀ u, u ∈ done ∨ u ∈ vs → u.name ≠ v.name := by
      intro u hu he
      simp only [List.map_cons, List.cons_append] at hperm
      refine (List.nodup_cons.1 hperm).1 ?_
      rw [← he]
      rcases hu with hu | hu
      · exact List.mem_append_left _ (List.mem_map_of_mem hu)
      · exact List.mem_append_right _ (List.mem_map_of_mem hu)
    -- entries of `v` are still as in `w0`
    have vfresh : w.fs (binFile dir v.name) = w0.fs (binFile dir v.name) ∧ w.fs (oldPath (binFile dir v.name)) = w0.fs (oldPath (binFile dir v.name)) := by
      refine ⟨hw.touch.fs _ ?_, hw.touch.fs _ ?_⟩
      · rintro ⟨u, hu, hr⟩
        exact (region_apart (hneAll u (Or.inl hu)) (hdot u ((hmem u).2 (Or.inl hu))) (hdot v hvall)).1 hr
      · rintro ⟨u, hu, hr⟩
        exact (region_apart (hneAll u (Or.inl hu)) (hdot u ((hmem u).2 (Or.inl hu))) (hdot v hvall)).2 hr
    unfold swapAll
    rw [wp_bind, wp_attempt]
    refine wp_mono (saveBin_spec dir names v w) ?_
    intro o w1 h1
    -- entries of the others are not affected by `v`
    have others : ∀ u, u ∈ done ∨ u ∈ vs → w1.fs (binFile dir u.name) = w.fs (binFile dir u.name) ∧ w1.fs (oldPath (binFile dir u.name)) = w.fs (oldPath (binFile dir u.name)) := by
      intro u hu
      have hua : u ∈ all := (hmem u).2 (hu.imp id (List.mem_cons_of_mem _))
      have := region_apart (dir := dir) (Ne.symm (hneAll u hu)) (hdot v hvall) (hdot u hua)
      exact ⟨h1.touch.fs _ this.1, h1.touch.fs _ this.2⟩
    have touch1 : Touch (fun q => ∃ u ∈ v :: done, Region (binFile dir u.name) q) w0 w1 := by
      refine (hw.touch.mono ?_).trans (h1.touch.mono ?_)
      · rintro q ⟨u, hu, hq⟩
        exact ⟨u, List.mem_cons_of_mem _ hu, hq⟩
      · intro q hq
        exact ⟨v, List.mem_cons_self, hq⟩
    have hmem' : ∀ u, u ∈ all ↔ u ∈ v :: done ∨ u ∈ vs := by
      intro u
      rw [hmem u, List.mem_cons, List.mem_cons]
      constructor
      · rintro (h | h | h)
        · exact Or.inl (Or.inr h)
        · exact Or.inl (Or.inl h)
        · exact Or.inr h
      · rintro ((h | h) | h)
        · exact Or.inr (Or.inl h)
        · exact Or.inl h
        · exact Or.inr (Or.inr h)
    have touchAll : ∀ {w'}, Touch (fun q => ∃ u ∈ v :: done, Region (binFile dir u.name) q) w0 w' →
        Touch (fun q => ∃ u ∈ all, Region (binFile dir u.name) q) w0 w' := by
      intro w' h
      refine h.mono ?_
      rintro q ⟨u, hu, hq⟩
      exact ⟨u, (hmem' u).2 (Or.inl hu), hq⟩
    have untouched : ∀ {w'}, Touch (fun q => ∃ u ∈ v :: done, Region (binFile dir u.name) q) w0 w' → ∀ u ∈ vs,
        w'.fs (binFile dir u.name) = w0.fs (binFile dir u.name) ∧ w'.fs (oldPath (binFile dir u.name)) = w0.fs (oldPath (binFile dir u.name)) := by
      intro w' h u hu
      have hua : u ∈ all := (hmem' u).2 (Or.inr hu)
      have hnn : ∀ x ∈ v :: done, x.name ≠ u.name := by
        intro x hx he
        refine (List.nodup_append.1 hperm).2.2 x.name (List.mem_map_of_mem hx) u.name (List.mem_map_of_mem hu) he
      refine ⟨h.fs _ ?_, h.fs _ ?_⟩
      · rintro ⟨x, hx, hr⟩
        exact (region_apart (hnn x hx) (hdot x ((hmem' x).2 (Or.inl hx))) (hdot u hua)).1 hr
      · rintro ⟨x, hx, hr⟩
        exact (region_apart (hnn x hx) (hdot x ((hmem' x).2 (Or.inl hx))) (hdot u hua)).2 hr
    have keepDone : ∀ u ∈ done, InPlace (binFile dir u.name) u w1 ∧ BackupFrom (binFile dir u.name) w0 w1 ∧ (Smooth w1.log → Restorable (binFile dir u.name) w0 w1) := by
      intro u hu
      have ho := others u (Or.inl hu)
      refine ⟨?_, ?_, ?_⟩
      · unfold InPlace
        rw [ho.1]
        exact hw.inPlace u hu
      · unfold BackupFrom
        rw [ho.2]
        exact hw.backup u hu
      · intro hq
        unfold Restorable
        rw [ho.2]
        exact hw.quiet (hq.pre h1.touch.log) u hu
    have vback : BackupFrom (binFile dir v.name) w0 w1 := by
      have := h1.backup
      unfold BackupFrom at this
      rw [vfresh.1, vfresh.2] at this
      exact this
    have vquiet : Smooth w1.log → o ≠ .crash → Restorable (binFile dir v.name) w0 w1 := by
      intro hq ho
      have := h1.quiet hq ho
      unfold Restorable at this
      rw [vfresh.1, vfresh.2] at this
      exact this
    have vtarget : w1.fs (binFile dir v.name) = w0.fs (binFile dir v.name) ∨ ∃ f, w1.fs (binFile dir v.name) = some f ∧ f.data = v.bytes := by
      have := h1.target
      rw [vfresh.1] at this
      exact this
    -- what is at the targets and backups of `v :: done` in `w1`
    have cur : ∀ u ∈ v :: done, (w1.fs (binFile dir u.name) = w0.fs (binFile dir u.name) ∨ ∃ f, w1.fs (binFile dir u.name) = some f ∧ f.data = u.bytes) ∧
        BackupFrom (binFile dir u.name) w0 w1 := by
      intro u hu
      rcases List.mem_cons.1 hu with rfl | hu
      · exact ⟨vtarget, vback⟩
      · obtain ⟨⟨f, hf, hd, _⟩, hb, _⟩ := keepDone u hu
        exact ⟨Or.inr ⟨f, hf, hd⟩, hb⟩
    cases o with
    | crash =>
      refine ⟨touchAll touch1, ?_, ?_, nofun, ?_⟩
      · intro u hu f hf
        rcases (hmem' u).1 hu with hu | hu
        · rcases (cur u hu).1 with h | ⟨f', hf', hd⟩
          · rw [h] at hf
            exact Or.inr (Or.inl ⟨f, hf, List.prefix_refl _⟩)
          · rw [hf] at hf'
            cases hf'
            exact Or.inl hd
        · rw [(untouched touch1 u hu).1] at hf
          exact Or.inr (Or.inl ⟨f, hf, List.prefix_refl _⟩)
      · intro u hu
        rcases (hmem' u).1 hu with hu | hu
        · exact Or.inr (cur u hu).2
        · exact Or.inr (Or.inl (untouched touch1 u hu).2)
      · intro _ u hu _
        refine ⟨nofun, ?_⟩
        rcases (hmem' u).1 hu with hu | hu
        · exact (cur u hu).1.imp SameBin.of_eq id
        · exact Or.inl (SameBin.of_eq (untouched touch1 u hu).1)
    | ok a =>
      simp only
      refine ih (v :: done) hmem' hperm w1 ⟨touch1, ?_, fun u hu => (cur u hu).2, ?_⟩
      · intro u hu
        rcases List.mem_cons.1 hu with rfl | hu
        · exact h1.done rfl
        · exact (keepDone u hu).1
      · intro hq u hu
        rcases List.mem_cons.1 hu with rfl | hu
        · exact vquiet hq nofun
        · exact (keepDone u hu).2.2 hq
    | err e =>
      simp only
      rw [wp_bind]
      have hnd1 : ((v :: done).map (·.name)).Nodup := (List.nodup_append.1 hperm).1
      have hdot1 : ∀ n ∈ (v :: done).map (·.name), '.' ∉ n := by
        intro n hn
        obtain ⟨u, hu, rfl⟩ := List.mem_map.1 hn
        exact hdot u ((hmem' u).2 (Or.inl hu))
      have hr : wp (rollbackAll dir (v.name :: done.map (·.name))) w1 (fun o w' => RolledAll dir ((v :: done).map (·.name)) o w1 w') := by
        rw [← List.map_cons (f := fun x : Verified => x.name)]
        exact rollbackAll_spec dir _ hnd1 hdot1 w1
      refine wp_mono hr ?_
      intro o2 w2 h2
      have touch2 : Touch (fun q => ∃ u ∈ v :: done, Region (binFile dir u.name) q) w0 w2 := by
        refine touch1.trans (h2.touch.mono ?_)
        rintro q ⟨n, hn, hq⟩
        obtain ⟨u, hu, rfl⟩ := List.mem_map.1 hn
        exact ⟨u, hu, hq.imp id Or.inl⟩
      have fin : ∀ out : Out Unit, out ≠ .ok () → (∀ e, out = .err e → o2 = .ok ()) → Swapped dir all out w0 w2 := by
        intro out hout herr
        refine ⟨touchAll touch2, ?_, ?_, fun h => absurd h hout, ?_⟩
        · intro u hu f hf
          rcases (hmem' u).1 hu with hu | hu
          · have hc := cur u hu
            rcases h2.target u.name (List.mem_map_of_mem hu) with h | h | h
            · rw [h] at hf
              rcases hc.1 with h' | ⟨f', hf', hd⟩
              · rw [h'] at hf
                exact Or.inr (Or.inl ⟨f, hf, List.prefix_refl _⟩)
              · rw [hf] at hf'
                cases hf'
                exact Or.inl hd
            · rw [h] at hf
              rcases hc.2 with h' | ⟨b, g, hb, hg, hp⟩
              · rw [h'] at hf
                exact Or.inr (Or.inr hf)
              · rw [hf] at hb
                cases hb
                exact Or.inr (Or.inl ⟨g, hg, hp⟩)
            · rw [h] at hf
              cases hf
          · rw [(untouched touch2 u hu).1] at hf
            exact Or.inr (Or.inl ⟨f, hf, List.prefix_refl _⟩)
        · intro u hu
          rcases (hmem' u).1 hu with hu | hu
          · rcases h2.backup u.name (List.mem_map_of_mem hu) with h | h
            · right
              unfold BackupFrom
              rw [h]
              exact (cur u hu).2
            · exact Or.inl h
          · exact Or.inr (Or.inl (untouched touch2 u hu).2)
        · intro hq u hu hstale
          rcases (hmem' u).1 hu with hu | hu
          · have hq1 := hq.pre h2.touch.log
            have hrest : Restorable (binFile dir u.name) w0 w1 := by
              rcases List.mem_cons.1 hu with rfl | hu
              · exact vquiet hq1 nofun
              · exact (keepDone u hu).2.2 hq1
            have hback : w2.fs (binFile dir u.name) = w1.fs (oldPath (binFile dir u.name)) → SameBin (w2.fs (binFile dir u.name)) (w0.fs (binFile dir u.name)) := by
              intro h
              unfold SameBin
              cases hg : w0.fs (binFile dir u.name) with
              | none => rw [h, hrest.2 hg, hstale hg]
              | some g =>
                obtain ⟨b, hb, hd, hm, _⟩ := hrest.1 g hg
                rw [h, hb]
                simp [hd, hm]
            have hown : w2.fs (binFile dir u.name) = w1.fs (oldPath (binFile dir u.name)) →
                w2.fs (binFile dir u.name) = w0.fs (binFile dir u.name) ∨ ∀ f, w2.fs (binFile dir u.name) = some f → f.owner = copyOwner (w0.fs (oldPath (binFile dir u.name))) := by
              intro h
              cases hg : w0.fs (binFile dir u.name) with
              | none => exact Or.inl (by rw [h, hrest.2 hg, hstale hg])
              | some g =>
                obtain ⟨b, hb, _, _, ho⟩ := hrest.1 g hg
                refine Or.inr (fun f hf => ?_)
                rw [h, hb] at hf
                cases hf
                exact ho
            rcases h2.quiet hq u.name (List.mem_map_of_mem hu) with ⟨h, hne⟩ | h
            · refine ⟨fun e he => absurd (herr e he) hne, ?_⟩
              rw [h]
              exact (cur u hu).1.imp SameBin.of_eq id
            · exact ⟨fun _ _ => ⟨hback h, hown h⟩, Or.inl (hback h)⟩
          · exact ⟨fun _ _ => ⟨SameBin.of_eq (untouched touch2 u hu).1, Or.inl (untouched touch2 u hu).1⟩, Or.inl (SameBin.of_eq (untouched touch2 u hu).1)⟩
      cases o2 with
      | err e' => exact absurd rfl (h2.noErr e')
      | crash => exact fin _ nofun nofun
      | ok a =>
        simp only
        rw [wp_throw]
        exact fin _ nofun (fun _ _ => rfl)

theorem swapAll_start (dir : Path) (names : Bool) (all : List Verified) (hdot : ∀ v ∈ all, '.' ∉ v.name) (hnd : (all.map (·.name)).Nodup) (w : World) :
    wp (swapAll dir names [] all) w (fun o w' => Swapped dir all o w w') := by
  have h1 : ∀ v, v ∈ all ↔ v ∈ ([] : List Verified) ∨ v ∈ all := fun v => ⟨Or.inr, fun h => h.elim nofun id⟩
  have h2 : Midway dir [] all w w := ⟨(touch_pre _).refl w, nofun, nofun, fun _ => nofun⟩
  exact swapAll_spec dir names all hdot w all [] h1 hnd w h2

end Ruroco
