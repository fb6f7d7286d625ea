import Verif.Lemmas.Clock
import Verif.Lemmas.Server

/-! Contract of `Blocklist::create` and `Server::create` at every outcome. -/

namespace Ruroco

/-- States of the file at `p` that can be found later: the current one, and (if power may be lost) the pending ones. -/
def cands (pw : Bool) (w : World) (p : Path) : List (Option File) := w.fs p :: (if pw then w.pend p else [])

theorem Saved.cands {P : Path} {m : BlMap} {o : Out Unit} {w w' : World} (h : Saved P m o w w') {pw : Bool} {G : Option File → Prop}
    (hm : ∀ f, DiskHolds f m → G f) (hw : ∀ f ∈ cands pw w P, G f) : ∀ f ∈ cands pw w' P, G f := by
  intro f hf
  unfold Ruroco.cands at hf hw
  rcases h.result with ⟨h1, h2, _⟩ | ⟨h1, h2, _⟩
  · rw [h1, h2] at hf; exact hw f hf
  · rcases List.mem_cons.1 hf with rfl | hf
    · exact hm _ h1
    · cases pw with
      | false => simp at hf
      | true => exact hw f (by simpa using h2 f hf)

/-- What a start finds: no file (empty state), or a file that parses to `m`. -/
def Loaded (w : World) (P : Path) (m : BlMap) : Prop :=
  (w.fs P = none ∧ m = []) ∨ ∃ f, w.fs P = some f ∧ decodeBl f.data = some m

theorem Loaded.wf {w : World} {P : Path} {m : BlMap} (h : Loaded w P m) : m.Wf := by
  rcases h with ⟨_, rfl⟩ | ⟨f, _, h⟩
  · exact ⟨by simp [BlMap.Nodup], by simp⟩
  · exact decodeBl_wf h

theorem Loaded.unique {w : World} {P : Path} {m m' : BlMap} (h : Loaded w P m) (h' : Loaded w P m') : m = m' := by
  rcases h with ⟨h1, rfl⟩ | ⟨f, h1, h2⟩
  · rcases h' with ⟨_, rfl⟩ | ⟨f', h1', _⟩
    · rfl
    · rw [h1] at h1'; cases h1'
  · rcases h' with ⟨h1', _⟩ | ⟨f', h1', h2'⟩
    · rw [h1] at h1'; cases h1'
    · rw [h1] at h1'; cases h1'
      rw [h2] at h2'; cases h2'; rfl

theorem ticks_save (b : Blocklist) : Ticks b.save := .bind (.ofExcept _) (fun _ => .writeAtomicWithMode _ _ _)

theorem ticks_blCreate (dir : Path) (order : BlMap → BlMap) : Ticks (Blocklist.create dir order) := by
  have fin : ∀ b : Blocklist, Ticks (do let b ← (Pure.pure b : Act Blocklist); b.save; Pure.pure b) :=
    fun b => .bind (.pure _) (fun b => .bind (ticks_save b) (fun _ => .pure _))
  unfold Blocklist.create
  simp only
  apply Ticks.bind (.pathExists _)
  intro b
  cases b with
  | false => exact fin _
  | true =>
    simp only [if_true]
    apply Ticks.bind (.readFile _)
    intro bs
    cases decodeBl bs with
    | none => exact .bind (.throw _) (fun b => .bind (ticks_save b) (fun _ => .pure _))
    | some m => exact fin _

theorem ticks_create (cfg : ServerCfg) (env : StartEnv) : Ticks (Server.create cfg env) := by
  unfold Server.create
  apply Ticks.bind (.ofExcept _)
  intro hs
  apply Ticks.bind (ticks_blCreate _ _)
  intro b
  apply Ticks.bind .nowNanos
  intro t
  apply Ticks.bind (ticks_save _)
  intro _
  split
  · exact .pure _
  · exact .throw _

/-- What a start works with: what is on disk, or nothing if `stat` failed (`Path::exists` reports failures as absence). -/
def Taken (w w' : World) (P : Path) (m : BlMap) : Prop := Loaded w P m ∨ (m = [] ∧ .statFailed P ∈ w'.log)

theorem Taken.wf {w w' : World} {P : Path} {m : BlMap} (h : Taken w w' P m) : m.Wf := by
  rcases h with h | ⟨rfl, _⟩
  · exact h.wf
  · exact ⟨by simp [BlMap.Nodup], by simp⟩

theorem Taken.later {w w1 w2 : World} {P : Path} {m : BlMap} (h : Taken w w1 P m) (hsub : ∀ e ∈ w1.log, e ∈ w2.log) : Taken w w2 P m :=
  h.imp_right (fun ⟨a, b⟩ => ⟨a, hsub _ b⟩)

structure BlCreated (P : Path) (order : BlMap → BlMap) (w : World) (o : Out Blocklist) (w' : World) : Prop where
  cur : w'.cur = w.cur
  frame : ∀ q, q ≠ P → ¬ IsTmpOf P q → w'.fs q = w.fs q
  log : ∃ l, w'.log = w.log ++ l ∧ FileEvents (fun q => q = P ∨ IsTmpOf P q) l
  keeps : ∀ (pw : Bool) (G : Option File → Prop), (∀ f ∈ cands pw w P, G f) →
    (∀ m, Taken w w' P m → ∀ f, DiskHolds f m → G f) → ∀ f ∈ cands pw w' P, G f
  ok : ∀ b, o = .ok b → b.path = P ∧ b.Wf ∧ DiskHolds (w'.fs P) b.map ∧
    Taken w w' P b.map ∧ (.dirSyncFailed P ∉ w'.log → w'.pend P = [])
  unparsable : ∀ f, w.fs P = some f → decodeBl f.data = none → .statFailed P ∉ w'.log →
    (∀ b, o ≠ .ok b) ∧ w'.fs P = w.fs P ∧ w'.pend P = w.pend P

/-- The result of saving a freshly loaded map. -/
theorem blCreated_of_saved {P : Path} {order : BlMap → BlMap} (hord : ∀ m, (order m).Perm m) {w w1 w2 : World} {m : BlMap}
    {o : Out Unit} (hfs : w1.fs = w.fs) (hpend : w1.pend = w.pend) (hcur : w1.cur = w.cur)
    (hlog : ∃ l, w1.log = w.log ++ l ∧ FileEvents (fun q => q = P ∨ IsTmpOf P q) l)
    (hl : Taken w w1 P m) (hs : Saved P m o w1 w2) :
    BlCreated P order w (match o with | .ok _ => .ok ⟨m, P, order⟩ | .err e => .err e | .crash => .crash) w2 := by
  obtain ⟨l1, e1, f1⟩ := hlog
  obtain ⟨l2, e2, f2⟩ := hs.log
  have hl2 : Taken w w2 P m := hl.later (fun e h => by rw [e2]; exact List.mem_append_left _ h)
  refine ⟨by rw [hs.cur, hcur], fun q h1 h2 => by rw [(hs.frame q h1 h2).1, hfs],
    ⟨l1 ++ l2, by rw [e2, e1, List.append_assoc], f1.append f2⟩, ?_, ?_, ?_⟩
  · intro pw G hG hm'
    apply hs.cands (hm' m hl2)
    intro f hf
    apply hG
    unfold cands at hf ⊢
    rw [hfs, hpend] at hf
    exact hf
  · intro b hb
    cases o with
    | err e => cases hb
    | crash => cases hb
    | ok u =>
      cases hb
      rcases hs.result with ⟨_, _, h3⟩ | ⟨h3, _, _, h4⟩
      · exact absurd rfl h3
      · exact ⟨rfl, ⟨hl.wf, hord⟩, h3, hl2, fun h => h4 rfl h⟩
  · intro f hf hd hns
    rcases hl2 with h1 | ⟨_, h2⟩
    · rcases h1 with ⟨h1, _⟩ | ⟨g, h1, h2⟩
      · rw [hf] at h1; cases h1
      · rw [hf] at h1; cases h1; rw [hd] at h2; cases h2
    · exact absurd h2 hns

theorem blCreate_spec (dir : Path) (order : BlMap → BlMap) (hord : ∀ m, (order m).Perm m) (w : World) :
    wp (Blocklist.create dir order) w (BlCreated (blocklistPath dir) order w) := by
  unfold Blocklist.create
  simp only
  generalize hP : blocklistPath dir = P
  -- a result that leaves the file system alone
  have quiet : ∀ (w1 : World) (o : Out Blocklist), w1.fs = w.fs → w1.pend = w.pend → w1.cur = w.cur →
      (∃ l, w1.log = w.log ++ l ∧ FileEvents (fun q => q = P ∨ IsTmpOf P q) l) → (∀ b, o ≠ .ok b) →
      BlCreated P order w o w1 := by
    intro w1 o h1 h2 h3 h4 h5
    refine ⟨h3, fun q _ _ => by rw [h1], h4, ?_, fun b hb => absurd hb (h5 b), fun _ _ _ _ => ⟨h5, by rw [h1], by rw [h2]⟩⟩
    intro pw G hG _ f hf
    apply hG
    unfold cands at hf ⊢
    rw [h1, h2] at hf; exact hf
  have fin : ∀ (w1 : World) (m : BlMap), w1.fs = w.fs → w1.pend = w.pend → w1.cur = w.cur →
      (∃ l, w1.log = w.log ++ l ∧ FileEvents (fun q => q = P ∨ IsTmpOf P q) l) → Taken w w1 P m →
      wp (do (Blocklist.mk m P order).save; pure (Blocklist.mk m P order)) w1 (BlCreated P order w) := by
    intro w1 m h1 h2 h3 h4 h5
    rw [wp_bind]
    refine wp_mono (save_spec (Blocklist.mk m P order) ⟨h5.wf, hord⟩ w1) ?_
    intro o w2 hs
    have := blCreated_of_saved hord h1 h2 h3 h4 h5 hs
    cases o with
    | ok u => exact this
    | err e => exact this
    | crash => exact this
  have one : ∀ {op}, FileEvents (fun q => q = P ∨ IsTmpOf P q) [.file op P] := by
    intro op e he
    simp at he; subst he; exact Or.inl rfl
  rw [wp_bind]
  unfold pathExists
  rw [wp_bind, wp_attempt]
  apply wp_atomicCall
  · intro o
    simp only [id]
    rw [wp_bind, wp_peek]
    simp only [wp_pure]
    cases hf : w.fs P with
    | none =>
      simp only [Option.isSome_none, Bool.false_eq_true, if_false]
      rw [wp_bind, wp_pure]
      exact fin _ [] rfl rfl rfl ⟨_, rfl, one⟩ (Or.inl (Or.inl ⟨hf, rfl⟩))
    | some f =>
      simp only [Option.isSome_some, if_true]
      unfold readFile
      rw [wp_bind, wp_bind]
      apply wp_atomicCall
      · intro o2
        simp only [id]
        rw [wp_bind, wp_peek]
        simp only [hf, wp_pure]
        cases hd : decodeBl f.data with
        | none =>
          simp only
          rw [wp_bind, wp_throw]
          exact quiet _ _ rfl rfl rfl ⟨_, List.append_assoc _ _ _, one.append one⟩ (by simp)
        | some m =>
          simp only
          rw [wp_bind, wp_pure]
          exact fin _ m rfl rfl rfl ⟨_, List.append_assoc _ _ _, one.append one⟩ (Or.inl (Or.inr ⟨f, hf, hd⟩))
      · intro o2
        exact quiet _ _ rfl rfl rfl ⟨_, List.append_assoc _ _ _, one.append one⟩ (by simp)
      · intro o2
        exact quiet _ _ rfl rfl rfl ⟨_, List.append_assoc _ _ _, one.append one⟩ (by simp)
      · intro o2
        exact quiet _ _ rfl rfl rfl ⟨_, List.append_assoc _ _ _, one.append one⟩ (by simp)
  · intro o
    simp only
    rw [wp_bind, wp_note]
    simp only [wp_pure, Bool.false_eq_true, if_false]
    rw [wp_bind, wp_pure]
    refine fin _ [] rfl rfl rfl ⟨_, List.append_assoc _ _ _, one.append ?_⟩ ?_
    · intro e he
      simp at he; subst he; exact Or.inl rfl
    · exact Or.inr ⟨rfl, by simp⟩
  · intro o
    exact quiet _ _ rfl rfl rfl ⟨_, rfl, one⟩ (by simp)
  · intro o
    exact quiet _ _ rfl rfl rfl ⟨_, rfl, one⟩ (by simp)

/-! ## Keys and seeding -/

theorem handlers_get_append {m : Handlers} {id : List Byte} {e : List Byte × CryptoHandler} (h : m.get e.1 = none) :
    (m ++ [e]).get id = if id = e.1 then some e.2 else m.get id := by
  induction m with
  | nil =>
    obtain ⟨k, v⟩ := e
    simp only [List.nil_append, Handlers.get]
    by_cases hk : k = id
    · simp [hk]
    · rw [if_neg hk, if_neg (fun h => hk h.symm)]
  | cons x rest ih =>
    obtain ⟨k, v⟩ := x
    simp only [Handlers.get] at h
    split at h
    · cases h
    · rename_i hne
      simp only [List.cons_append, Handlers.get]
      rw [ih h]
      by_cases hk : k = id
      · rw [if_pos hk, if_pos hk]
        subst hk
        rw [if_neg hne]
      · rw [if_neg hk, if_neg hk]

/-- Every loaded handler is stored under its own 8-byte id and has a 32-byte key. -/
def GoodHandlers (hs : Handlers) : Prop := ∀ e ∈ hs, e.1 = e.2.id ∧ e.2.id.length = 8 ∧ e.2.key.length = 32

theorem loadKeys_good {es : List DirEntry} {acc hs : Handlers} (h : loadKeys es acc = .ok hs) (ha : GoodHandlers acc) : GoodHandlers hs := by
  induction es generalizing acc with
  | nil => simp [loadKeys] at h; subst h; exact ha
  | cons e rest ih =>
    simp only [loadKeys] at h
    split at h
    · cases h
    · split at h
      · cases h
      · rename_i t _ hd hc
        split at h
        · cases h
        · apply ih h
          intro e he
          rcases List.mem_append.1 he with he | he
          · exact ha e he
          · simp at he; subst he
            have := (create_ok_iff _ _).1 hc
            exact ⟨rfl, this.2⟩

theorem createCryptoHandlers_good {dir : Option (List DirEntry)} {hs : Handlers} (h : createCryptoHandlers dir = .ok hs) : GoodHandlers hs := by
  unfold createCryptoHandlers at h
  split at h
  · cases h
  · exact loadKeys_good h (by simp [GoodHandlers])

theorem handlers_mem_of_get {m : Handlers} {id : List Byte} {h : CryptoHandler} (hg : m.get id = some h) : (id, h) ∈ m := by
  induction m with
  | nil => simp [Handlers.get] at hg
  | cons x rest ih =>
    obtain ⟨k, v⟩ := x
    simp only [Handlers.get] at hg
    split at hg
    · rename_i hk; cases hg; subst hk; simp
    · exact List.mem_cons_of_mem _ (ih hg)

/-- `seed_if_absent` for all keys. -/
def seedAll (b : Blocklist) (hs : Handlers) (floor : U128) : Blocklist := hs.foldl (fun b h => b.seedIfAbsent h.1 floor) b

theorem seedIfAbsent_get (b : Blocklist) (k : List Byte) (floor : U128) (k' : List Byte) :
    (b.seedIfAbsent k floor).map.get k' = (b.map.get k').or (if k' = k then some floor else none) := by
  unfold Blocklist.seedIfAbsent
  split
  · rename_i v hv
    by_cases h : k' = k
    · subst h; simp [hv]
    · simp [h]
  · rename_i hv
    simp only [BlMap.get_insert]
    by_cases h : k' = k
    · subst h; simp [hv]
    · simp [h]

theorem seedIfAbsent_fields (b : Blocklist) (k : List Byte) (floor : U128) :
    (b.seedIfAbsent k floor).path = b.path ∧ (b.seedIfAbsent k floor).order = b.order := by
  unfold Blocklist.seedIfAbsent
  split <;> exact ⟨rfl, rfl⟩

theorem seedIfAbsent_wf {b : Blocklist} (hb : b.Wf) {k : List Byte} (hk : k.length = 8) (floor : U128) : (b.seedIfAbsent k floor).Wf := by
  unfold Blocklist.seedIfAbsent
  split
  · exact hb
  · exact ⟨hb.map.insert hk floor, hb.order⟩

theorem seedAll_spec (b : Blocklist) (hs : Handlers) (floor : U128) :
    (seedAll b hs floor).path = b.path ∧ (seedAll b hs floor).order = b.order ∧
      (b.Wf → GoodHandlers hs → (seedAll b hs floor).Wf) ∧
      ∀ k, (seedAll b hs floor).map.get k = (b.map.get k).or (if k ∈ hs.map Prod.fst then some floor else none) := by
  unfold seedAll
  induction hs generalizing b with
  | nil => exact ⟨rfl, rfl, fun h _ => h, fun k => by simp⟩
  | cons e rest ih =>
    obtain ⟨h1, h2, h3, h4⟩ := ih (b.seedIfAbsent e.1 floor)
    obtain ⟨f1, f2⟩ := seedIfAbsent_fields b e.1 floor
    refine ⟨by rw [List.foldl_cons, h1, f1], by rw [List.foldl_cons, h2, f2], ?_, ?_⟩
    · intro hb hg
      rw [List.foldl_cons]
      have := hg e (by simp)
      exact h3 (seedIfAbsent_wf hb (by rw [this.1]; exact this.2.1) floor) (fun x hx => hg x (by simp [hx]))
    · intro k
      rw [List.foldl_cons, h4, seedIfAbsent_get]
      by_cases hk : k = e.1
      · subst hk
        cases b.map.get e.1 <;> simp
      · have : (k ∈ List.map Prod.fst (e :: rest)) ↔ (k ∈ List.map Prod.fst rest) := by
          rw [List.map_cons, List.mem_cons]; simp [hk]
        simp only [this, hk, if_false, Option.or_none]

/-! ## Server::create -/

/-- `m'` is what a start makes of the loaded map `m`: nothing known is changed, new entries are the clock reading `floor`. -/
structure Seeded (m m' : BlMap) (keys : List (List Byte)) (floor : U128) : Prop where
  get : ∀ k, m'.get k = (m.get k).or (if k ∈ keys then some floor else none)

structure Created (cfg : ServerCfg) (env : StartEnv) (w : World) (o : Out Server) (w' : World) : Prop where
  cur : w'.cur = w.cur
  frame : ∀ q, q ≠ blocklistPath cfg.blDir → ¬ IsTmpOf (blocklistPath cfg.blDir) q → w'.fs q = w.fs q
  log : ∃ l, w'.log = w.log ++ l ∧ FileEvents (fun q => q = blocklistPath cfg.blDir ∨ IsTmpOf (blocklistPath cfg.blDir) q) l
  keeps : ∀ (pw : Bool) (G : Option File → Prop),
    (∀ f ∈ cands pw w (blocklistPath cfg.blDir), G f) →
    (∀ m m' keys floor f, Taken w w' (blocklistPath cfg.blDir) m → Seeded m m' keys floor → some floor ∈ w.clock ∨ keys = [] →
      DiskHolds f m' → (∀ k ∈ keys, ∃ hs, createCryptoHandlers env.dir = .ok hs ∧ k ∈ hs.map Prod.fst) → G f) →
    ∀ f ∈ cands pw w' (blocklistPath cfg.blDir), G f
  ok : ∀ s, o = .ok s → s.cfg = cfg ∧ createCryptoHandlers env.dir = .ok s.handlers ∧ s.bl.path = blocklistPath cfg.blDir ∧ s.bl.Wf ∧
    DiskHolds (w'.fs s.bl.path) s.bl.map ∧ (.dirSyncFailed s.bl.path ∉ w'.log → w'.pend s.bl.path = []) ∧
    s.rl = RateLimiter.new env.mono ∧ env.bindOk = true ∧
    ∃ m floor, Taken w w' s.bl.path m ∧ some floor ∈ w.clock ∧ Seeded m s.bl.map (s.handlers.map Prod.fst) floor
  unparsable : ∀ f, w.fs (blocklistPath cfg.blDir) = some f → decodeBl f.data = none → .statFailed (blocklistPath cfg.blDir) ∉ w'.log →
    (∀ s, o ≠ .ok s) ∧ w'.fs (blocklistPath cfg.blDir) = w.fs (blocklistPath cfg.blDir) ∧
      w'.pend (blocklistPath cfg.blDir) = w.pend (blocklistPath cfg.blDir)

theorem diskHolds_congr {f : Option File} {m m' : BlMap} (h : DiskHolds f m) (he : ∀ k, m.get k = m'.get k) : DiskHolds f m' := by
  obtain ⟨file, m1, h1, h2, h3, h4, h5⟩ := h
  exact ⟨file, m1, h1, h2, h3, fun k => by rw [h4, he], h5⟩

theorem create_spec (cfg : ServerCfg) (env : StartEnv) (hord : ∀ m, (env.order m).Perm m) (w : World) :
    wp (Server.create cfg env) w (Created cfg env w) := by
  unfold Server.create
  generalize hP : blocklistPath cfg.blDir = P
  rw [wp_bind, wp_ofExcept]
  cases hh : createCryptoHandlers env.dir with
  | error e =>
    subst hP
    refine ⟨rfl, fun _ _ _ => rfl, ⟨[], by simp, by simp [FileEvents]⟩, fun pw G h _ => h, by simp, fun _ _ _ _ => ⟨by simp, rfl, rfl⟩⟩
  | ok hs =>
    have hgood := createCryptoHandlers_good hh
    simp only
    rw [wp_bind]
    have hticks := ticks_blCreate cfg.blDir env.order w
    refine wp_mono (R := fun o w' => _) (show wp (Blocklist.create cfg.blDir env.order) w (fun o w' =>
      BlCreated P env.order w o w' ∧ w'.clock <:+ w.clock) from ⟨hP ▸ blCreate_spec cfg.blDir env.order hord w, hticks⟩) ?_
    rintro o w1 ⟨h1, hclk1⟩
    have keeps1 : ∀ {w2 : World}, (∀ e ∈ w1.log, e ∈ w2.log) →
      ∀ (pw : Bool) (G : Option File → Prop), (∀ f ∈ cands pw w P, G f) →
      (∀ m m' keys floor f, Taken w w2 P m → Seeded m m' keys floor → some floor ∈ w.clock ∨ keys = [] → DiskHolds f m' →
        (∀ k ∈ keys, ∃ hs, createCryptoHandlers env.dir = .ok hs ∧ k ∈ hs.map Prod.fst) → G f) →
      ∀ f ∈ cands pw w1 P, G f := by
      intro w2 hsub pw G hG hm
      apply h1.keeps pw G hG
      intro m hl f hf
      exact hm m m [] 0 f (hl.later hsub) ⟨fun k => by simp⟩ (Or.inr rfl) hf nofun
    have failed : ∀ (o : Out Server) (w2 : World), w2.fs = w1.fs → w2.pend = w1.pend → w2.cur = w1.cur → w2.log = w1.log →
        (∀ s, o ≠ .ok s) → Created cfg env w o w2 := by
      intro o w2 e1 e2 e3 e4 hne
      subst hP
      refine ⟨by rw [e3, h1.cur], fun q a b => by rw [e1, h1.frame q a b], by rw [e4]; exact h1.log, ?_, fun s hs => absurd hs (hne s), ?_⟩
      rotate_left
      · intro f hf hd hns
        obtain ⟨_, a, b⟩ := h1.unparsable f hf hd (by rw [← e4]; exact hns)
        exact ⟨hne, by rw [e1, a], by rw [e2, b]⟩
      intro pw G hG hm f hf
      unfold cands at hf
      rw [e1, e2] at hf
      exact keeps1 (w2 := w2) (fun e h => by rw [e4]; exact h) pw G hG hm f hf
    cases o with
    | err e => exact failed _ w1 rfl rfl rfl rfl (by simp)
    | crash => exact failed _ w1 rfl rfl rfl rfl (by simp)
    | ok b =>
      obtain ⟨b1, b2, b3, b4, b5⟩ := h1.ok b rfl
      simp only
      rw [wp_bind]
      apply wp_nowNanos
      · intro floor c hc
        have hfloor : some floor ∈ w.clock := hclk1.subset (by rw [hc]; simp)
        simp only
        obtain ⟨s1, s2, s3, s4⟩ := seedAll_spec b hs floor
        show wp (do
          (seedAll b hs floor).save
          if env.bindOk = true then
            pure ({ cfg, handlers := hs, bl := seedAll b hs floor, rl := RateLimiter.new env.mono, throttle := ⟨none, 0⟩ } : Server)
          else Act.throw .io) _ _
        generalize hb' : seedAll b hs floor = b' at s1 s2 s3 s4
        have hwf := s3 b2 hgood
        rw [wp_bind]
        refine wp_mono (save_spec b' hwf _) ?_
        intro o w2 hs2
        rw [s1, b1] at hs2
        have hcur2 : w2.cur = w1.cur := hs2.cur
        obtain ⟨l1, e1, f1⟩ := h1.log
        obtain ⟨l2, e2, f2⟩ := hs2.log
        have e2 : w2.log = w1.log ++ l2 := e2
        have hsub : ∀ e ∈ w1.log, e ∈ w2.log := fun e h => by rw [e2]; exact List.mem_append_left _ h
        have hseed : Taken w w2 P b.map ∧ Seeded b.map b'.map (hs.map Prod.fst) floor := ⟨b4.later hsub, ⟨s4⟩⟩
        have base : ∀ (o' : Out Server), (∀ s, o' = .ok s → o = .ok () ∧ env.bindOk = true ∧ s = { cfg, handlers := hs, bl := b', rl := RateLimiter.new env.mono, throttle := ⟨none, 0⟩ }) →
            Created cfg env w o' w2 := by
          intro o' ho'
          subst hP
          refine ⟨by rw [hcur2, h1.cur], fun q a b => by rw [(hs2.frame q a b).1]; exact h1.frame q a b,
            ⟨l1 ++ l2, by rw [e2, e1, List.append_assoc], f1.append f2⟩, ?_, ?_, ?_⟩
          · intro pw G hG hm
            refine hs2.cands (G := G) ?_ ?_
            · intro f hf
              obtain ⟨h1, h2⟩ := hseed
              exact hm _ _ _ _ f h1 h2 (Or.inl hfloor) hf (fun k hk => ⟨hs, hh, hk⟩)
            · exact keeps1 hsub pw G hG hm
          · intro s hs'
            obtain ⟨rfl, hbind, rfl⟩ := ho' s hs'
            have hp : b'.path = blocklistPath cfg.blDir := by rw [s1, b1]
            rcases hs2.result with ⟨_, _, h3⟩ | ⟨h3, _, _, h4⟩
            · exact absurd rfl h3
            · refine ⟨rfl, hh, hp, hwf, by simp only [hp]; exact h3, ?_, rfl, hbind, ?_⟩
              · simp only [hp]; exact fun h => h4 rfl h
              · simp only [hp]
                obtain ⟨h1, h2⟩ := hseed
                exact ⟨_, floor, h1, hfloor, h2⟩
          · intro f hf hd hns
            exact absurd rfl ((h1.unparsable f hf hd (fun h => hns (hsub _ h))).1 b)
        cases o with
        | err e => exact base _ (by simp)
        | crash => exact base _ (by simp)
        | ok u =>
          simp only
          split
          · rename_i hbind
            rw [wp_pure]
            exact base _ (fun s hs => by cases hs; exact ⟨rfl, hbind, rfl⟩)
          · rw [wp_throw]
            exact base _ (by simp)
      · intro c
        exact failed _ _ rfl rfl rfl rfl (by simp)

end Ruroco
