import Verif.Lemmas.Update
import Verif.Lemmas.IpText
import Verif.Spec.Update
import Verif.Spec.Fs
import Verif.Spec.Terms.Update

/-!
# C43-C46, C54: the updater
-/

namespace Ruroco

open Spec

/-! ## C54: size cap -/

/-- **C54**: whatever the server sends, at most one byte more than 100 MiB is buffered; a body is accepted exactly if it has at most 100 MiB, and then
unmodified. -/
theorem C54_cap (body : List Byte) :
    (readCapped body).length ≤ 100 * 1024 * 1024 + 1 ∧
    (∀ bytes, downloadBytes (some body) = .ok bytes ↔ bytes = body ∧ body.length ≤ 100 * 1024 * 1024) ∧
    (∀ e, downloadBytes (some body) = .error e → 100 * 1024 * 1024 < body.length) ∧ (∃ e, downloadBytes none = .error e) := by
  have hlen : (readCapped body).length = min (MAX_DOWNLOAD_BYTES + 1) body.length := by simp [readCapped]
  have hmax : MAX_DOWNLOAD_BYTES = 100 * 1024 * 1024 := rfl
  rw [hmax] at hlen
  unfold downloadBytes
  simp only [hmax]
  refine ⟨by omega, ?_, ?_, _, rfl⟩
  · intro bytes
    split
    · constructor
      · nofun
      · rintro ⟨_, h⟩
        omega
    · rename_i h
      have : readCapped body = body := by
        unfold readCapped
        rw [List.take_of_length_le]
        rw [hmax]
        omega
      rw [this]
      constructor
      · intro h'
        cases h'
        exact ⟨rfl, by omega⟩
      · rintro ⟨rfl, _⟩
        rfl
  · intro e
    split
    · intro _
      omega
    · nofun

example : downloadBytes (some [1, 2, 3]) = .ok [1, 2, 3] := ((C54_cap [1, 2, 3]).2.1 _).2 ⟨rfl, by decide⟩
example : ∃ e, downloadBytes (some (List.replicate (100 * 1024 * 1024 + 1) 0)) = .error e := by
  have h := (C54_cap (List.replicate (100 * 1024 * 1024 + 1) 0)).2.1
  cases hd : downloadBytes (some (List.replicate (100 * 1024 * 1024 + 1) 0)) with
  | error e => exact ⟨e, rfl⟩
  | ok b =>
    have := ((h b).1 hd).2
    rw [List.length_replicate] at this
    omega

theorem downloadBytes_iff (x : Option (List Byte)) (bytes : List Byte) : downloadBytes x = .ok bytes ↔ x = some bytes ∧ bytes.length ≤ 100 * 1024 * 1024 := by
  cases x with
  | none => exact ⟨nofun, nofun⟩
  | some body =>
    rw [(C54_cap body).2.1 bytes]
    constructor
    · rintro ⟨rfl, h⟩
      exact ⟨rfl, h⟩
    · rintro ⟨h, h'⟩
      cases h
      exact ⟨rfl, h'⟩

/-! ## C46: selection -/

theorem find_firstIn {p : α → Bool} {P : α → Prop} (hp : ∀ x, p x = true ↔ P x) (l : List α) (x : α) : l.find? p = some x ↔ FirstIn P l x := by
  rw [List.find?_eq_some_iff_append]
  constructor
  · rintro ⟨hx, before, after, hl, hb⟩
    refine ⟨before, after, hl, (hp x).1 hx, fun y hy hPy => ?_⟩
    have := hb y hy
    rw [(hp y).2 hPy] at this
    cases this
  · rintro ⟨before, after, hl, hx, hb⟩
    refine ⟨(hp x).2 hx, before, after, hl, fun y hy => ?_⟩
    cases h : p y with
    | false => rfl
    | true => exact absurd ((hp y).1 h) (hb y hy)

/-- **C46**, releases: the first non-prerelease, or the first release with exactly the requested tag. -/
theorem C46_release (env : UpdEnv) (version : Option (List Char)) (r : Release) :
    selectRelease env.releases version = .ok r ↔ ChosenRelease env version r := by
  unfold selectRelease ChosenRelease
  cases hr : env.releases with
  | none => exact ⟨nofun, by rintro ⟨_, h, _⟩; cases h⟩
  | some rs =>
    simp only
    have key : ∀ (p : Release → Bool) (P : Release → Prop), (∀ x, p x = true ↔ P x) →
        ((match rs.find? p with | none => (.error .noRelease : Except Err Release) | some d => .ok d) = .ok r ↔ ∃ rs', some rs = some rs' ∧ FirstIn P rs' r) := by
      intro p P hp
      constructor
      · intro h
        refine ⟨rs, rfl, ?_⟩
        rw [← find_firstIn hp]
        split at h
        · cases h
        · rename_i hd
          cases h
          exact hd
      · rintro ⟨rs', h1, h2⟩
        cases h1
        rw [(find_firstIn hp _ _).2 h2]
    cases version with
    | none => exact key _ _ (fun x => by simp)
    | some v => exact key _ _ (fun x => by simp)

/-- The choice is unique, and fails only if there is none. -/
theorem C46_release_unique (env : UpdEnv) (version : Option (List Char)) (r r' : Release) (h : ChosenRelease env version r) (h' : ChosenRelease env version r') :
    r = r' := by
  rw [← C46_release] at h h'
  rw [h] at h'
  cases h'
  rfl

/-- **C46**, assets: exactly the requested name. -/
theorem C46_asset (r : Release) (name url : List Char) : getDownloadUrl r.assets name = .ok url ↔ AssetUrl r name url := by
  unfold getDownloadUrl AssetUrl
  have h : r.assets.findSome? (fun a => if a.name = name then some a.url else none) = (r.assets.find? (fun a => decide (a.name = name))).map (·.url) := by
    induction r.assets with
    | nil => rfl
    | cons a as ih =>
      rw [List.findSome?_cons, List.find?_cons]
      by_cases ha : a.name = name
      · simp [ha]
      · simp [ha, ih]
  rw [h]
  have hp : ∀ x : Asset, decide (x.name = name) = true ↔ x.name = name := fun x => by simp
  constructor
  · intro h'
    cases hf : r.assets.find? (fun a => decide (a.name = name)) with
    | none =>
      rw [hf] at h'
      cases h'
    | some a =>
      rw [hf] at h'
      cases h'
      exact ⟨a, (find_firstIn hp _ _).1 hf, rfl⟩
  · rintro ⟨a, ha, rfl⟩
    rw [(find_firstIn hp _ _).2 ha]
    rfl

/-! ## C45: versions -/

theorem splitDot_append {a b : List Char} (ha : '.' ∉ a) : splitDot (a ++ '.' :: b) = (a, some b) := by
  induction a with
  | nil => simp [splitDot]
  | cons c a ih =>
    have hc : c ≠ '.' := fun h => ha (by simp [h])
    simp [splitDot, hc, ih (fun h => ha (List.mem_cons_of_mem _ h))]

theorem digits_noDot (n : Nat) : '.' ∉ Nat.toDigits 10 n := by
  intro h
  obtain ⟨d, hd, h⟩ := isDigit_of_mem_show (radix := 10) (by omega) (by omega) _ h
  have : ∀ d < 10, '.' ≠ Nat.digitChar d := by decide
  exact this d hd h

theorem parseU64_digits {n : Nat} (hn : n < 2 ^ 64) : parseU64 (Nat.toDigits 10 n) = some n := by
  have hd : ∀ c ∈ Nat.toDigits 10 n, (toDigit 10 c).isSome = true := by
    intro c hc
    obtain ⟨d, hd, rfl⟩ := isDigit_of_mem_show (radix := 10) (by omega) (by omega) c hc
    simp [toDigit_digitChar (radix := 10) (by omega) hd]
  have hplus : stripPlus (Nat.toDigits 10 n) = Nat.toDigits 10 n := by
    cases hs : Nat.toDigits 10 n with
    | nil => rfl
    | cons c t =>
      have hc := hd c (by rw [hs]; simp)
      have : c ≠ '+' := by rintro rfl; exact absurd hc (by decide)
      simp only [stripPlus, if_neg this]
  have hof : ofDigits 10 (Nat.toDigits 10 n) = n := ofDigits_show (radix := 10) (by omega) (by omega)
  unfold parseU64
  simp only
  rw [hplus, hof, if_pos ⟨Nat.toDigits_ne_nil, by rw [List.all_eq_true]; exact hd, hn⟩]

theorem parseVersion_text {x y z : Nat} (hx : x < 2 ^ 64) (hy : y < 2 ^ 64) (hz : z < 2 ^ 64) : parseVersion (versionText x y z) = some (x, y, z) := by
  have hdrop : (versionText x y z).dropWhile (· == 'v') = Nat.toDigits 10 x ++ '.' :: (Nat.toDigits 10 y ++ '.' :: Nat.toDigits 10 z) := by
    unfold versionText
    rw [List.dropWhile_cons_of_pos (by decide)]
    cases hs : Nat.toDigits 10 x with
    | nil => exact absurd hs Nat.toDigits_ne_nil
    | cons c t =>
      rw [List.cons_append, List.dropWhile_cons_of_neg]
      obtain ⟨d, hd, h⟩ := isDigit_of_mem_show (radix := 10) (n := x) (by omega) (by omega) c (by unfold showRadix; rw [hs]; simp)
      have : ∀ d < 10, ¬ (Nat.digitChar d == 'v') = true := by decide
      rw [h]
      exact this d hd
  unfold parseVersion
  rw [hdrop, splitDot_append (digits_noDot x)]
  simp only
  rw [splitDot_append (digits_noDot y)]
  simp [parseU64_digits hx, parseU64_digits hy, parseU64_digits hz]

/-- **C45**, comparison: on tags `vX.Y.Z` with 64-bit numbers `is_downgrade` decides exactly whether the target is lower. -/
theorem C45_comparison (x y z x' y' z' : Nat) (hx : x < 2 ^ 64) (hy : y < 2 ^ 64) (hz : z < 2 ^ 64) (hx' : x' < 2 ^ 64) (hy' : y' < 2 ^ 64) (hz' : z' < 2 ^ 64) :
    ∃ b, isDowngrade (versionText x y z) (versionText x' y' z') = some b ∧ (b = true ↔ Lower (x', y', z') (x, y, z)) := by
  refine ⟨versionLt (x', y', z') (x, y, z), ?_, ?_⟩
  · unfold isDowngrade
    rw [parseVersion_text hx hy hz, parseVersion_text hx' hy' hz']
    rfl
  · simp [versionLt, Lower]

/-- **C45**: `Lower` is a strict total order. -/
theorem C45_order (a b c : Nat × Nat × Nat) :
    ¬ Lower a a ∧ (Lower a b → Lower b c → Lower a c) ∧ (Lower a b ∨ a = b ∨ Lower b a) := by
  obtain ⟨a1, a2, a3⟩ := a
  obtain ⟨b1, b2, b3⟩ := b
  obtain ⟨c1, c2, c3⟩ := c
  simp only [Lower, Prod.mk.injEq]
  omega

/-- The tag determines the version. -/
theorem C45_text_injective (x y z x' y' z' : Nat) (hx : x < 2 ^ 64) (hy : y < 2 ^ 64) (hz : z < 2 ^ 64) (hx' : x' < 2 ^ 64) (hy' : y' < 2 ^ 64) (hz' : z' < 2 ^ 64)
    (h : versionText x y z = versionText x' y' z') : x = x' ∧ y = y' ∧ z = z' := by
  have := parseVersion_text hx hy hz
  rw [h, parseVersion_text hx' hy' hz'] at this
  cases this
  exact ⟨rfl, rfl, rfl⟩

/-! ## The plan -/

theorem except_bind_ok {x : Except Err α} {f : α → Except Err β} {b : β} : (x >>= f) = .ok b ↔ ∃ a, x = .ok a ∧ f a = .ok b := by
  cases x with
  | ok a => exact ⟨fun h => ⟨a, rfl, h⟩, by rintro ⟨a', h, h'⟩; cases h; exact h'⟩
  | error e => exact ⟨nofun, by rintro ⟨_, h, _⟩; cases h⟩

/-- What is to be installed for target `t`. -/
def Fetched (env : UpdEnv) (r : Release) (i : Nat) (t : Target) (v : Verified) : Prop :=
  v.name = t.name ∧ v.mode = t.mode ∧ v.owner = t.owner ∧ Authentic env r i t.pfx v.bytes

theorem authentic_iff (env : UpdEnv) (r : Release) (i : Nat) (pfx : List Char) (bytes : List Byte) :
    Authentic env r i pfx bytes ↔ ∃ binUrl sigUrl, getDownloadUrl r.assets (assetName env pfx r.tag) = .ok binUrl ∧
      getDownloadUrl r.assets (assetName env pfx r.tag ++ ".sig".toList) = .ok sigUrl ∧ downloadAndVerify env i binUrl sigUrl = .ok bytes := by
  have hname : assetName env pfx r.tag = pfx ++ "-".toList ++ r.tag ++ "-".toList ++ env.arch ++ "-".toList ++ env.os := by
    simp [assetName]
  unfold Authentic
  rw [← hname]
  have hdl : ∀ binUrl sigUrl, downloadAndVerify env i binUrl sigUrl = .ok bytes ↔
      ∃ sig, Received env (2 * i) binUrl bytes ∧ Received env (2 * i + 1) sigUrl sig ∧ env.verify bytes sig = true := by
    intro binUrl sigUrl
    unfold downloadAndVerify
    rw [except_bind_ok]
    constructor
    · rintro ⟨bin, h1, h2⟩
      rw [except_bind_ok] at h2
      obtain ⟨sig, h2, h3⟩ := h2
      split at h3
      · rename_i hv
        cases h3
        exact ⟨sig, (downloadBytes_iff _ _).1 h1, (downloadBytes_iff _ _).1 h2, hv⟩
      · cases h3
    · rintro ⟨sig, h1, h2, h3⟩
      refine ⟨bytes, (downloadBytes_iff _ _).2 h1, ?_⟩
      rw [except_bind_ok]
      refine ⟨sig, (downloadBytes_iff _ _).2 h2, ?_⟩
      rw [if_pos h3]
      rfl
  constructor
  · rintro ⟨binUrl, sigUrl, sig, h1, h2, h3⟩
    exact ⟨binUrl, sigUrl, (C46_asset r _ _).2 h1, (C46_asset r _ _).2 h2, (hdl _ _).2 ⟨sig, h3⟩⟩
  · rintro ⟨binUrl, sigUrl, h1, h2, h3⟩
    obtain ⟨sig, h3⟩ := (hdl _ _).1 h3
    exact ⟨binUrl, sigUrl, sig, (C46_asset r _ _).1 h1, (C46_asset r _ _).1 h2, h3⟩

theorem downloadAll_ok (env : UpdEnv) (r : Release) (i : Nat) (ts : List Target) (vs : List Verified) (h : downloadAll env r i ts = .ok vs) :
    vs.length = ts.length ∧ ∀ (k : Nat) (t : Target) (v : Verified), ts[k]? = some t → vs[k]? = some v → Fetched env r (i + k) t v := by
  induction ts generalizing i vs with
  | nil =>
    cases h
    exact ⟨rfl, nofun⟩
  | cons t ts ih =>
    unfold downloadAll at h
    simp only [except_bind_ok] at h
    obtain ⟨binUrl, h1, sigUrl, h2, bytes, h3, rest, h4, h5⟩ := h
    cases h5
    obtain ⟨hl, hk⟩ := ih (i + 1) rest h4
    refine ⟨by simp [hl], ?_⟩
    intro k t' v ht hv
    cases k with
    | zero =>
      simp only [List.getElem?_cons_zero, Option.some.injEq] at ht hv
      subst ht hv
      exact ⟨rfl, rfl, rfl, (authentic_iff _ _ _ _ _).2 ⟨binUrl, sigUrl, h1, h2, h3⟩⟩
    | succ k =>
      have := hk k t' v ht hv
      rwa [show i + 1 + k = i + (k + 1) by omega] at this

theorem downloadAll_complete (env : UpdEnv) (r : Release) (i : Nat) (ts : List Target)
    (h : ∀ (k : Nat) (t : Target), ts[k]? = some t → ∃ bytes, Authentic env r (i + k) t.pfx bytes) : ∃ vs, downloadAll env r i ts = .ok vs := by
  induction ts generalizing i with
  | nil => exact ⟨[], rfl⟩
  | cons t ts ih =>
    obtain ⟨bytes, hb⟩ := h 0 t rfl
    obtain ⟨binUrl, sigUrl, h1, h2, h3⟩ := (authentic_iff _ _ _ _ _).1 hb
    obtain ⟨rest, hr⟩ := ih (i + 1) (fun k t' ht => by
      have := h (k + 1) t' ht
      rwa [show i + (k + 1) = i + 1 + k by omega] at this)
    refine ⟨⟨bytes, t.name, t.mode, t.owner⟩ :: rest, ?_⟩
    unfold downloadAll
    simp only [except_bind_ok]
    exact ⟨binUrl, h1, sigUrl, h2, bytes, h3, rest, hr, rfl⟩

theorem plan_some (u : Updater) (env : UpdEnv) (vs : List Verified) (h : u.plan env = .ok (some vs)) :
    ∃ r, ChosenRelease env u.version r ∧ ¬ UpToDate u env ∧ (u.force = false → u.version = none → isDowngrade env.current r.tag ≠ some true) ∧
      vs.length = u.targets.length ∧ (∀ (i : Nat) (t : Target) (v : Verified), u.targets[i]? = some t → vs[i]? = some v → Fetched env r i t v) := by
  unfold Updater.plan at h
  split at h
  · cases h
  · rename_i h0
    obtain ⟨r, hr, h⟩ := except_bind_ok.1 h
    split at h
    · cases h
    · rename_i h1
      split at h
      · cases h
      · rename_i h2
        obtain ⟨vs', hv, h⟩ := except_bind_ok.1 h
        cases h
        obtain ⟨hl, hk⟩ := downloadAll_ok env r 0 u.targets vs hv
        have hc := (C46_release env u.version r).1 hr
        refine ⟨r, hc, ?_, ?_, hl, ?_⟩
        · rintro ⟨hf, hv | ⟨r', hc', ht⟩⟩
          · exact h0 (by simp [hf, hv])
          · have := C46_release_unique env u.version r r' hc hc'
            subst this
            exact h1 (by simp [hf, ht])
        · intro hf hv hd
          exact h2 (by simp [hf, hv, hd])
        · intro i t v ht hvv
          have := hk i t v ht hvv
          rwa [Nat.zero_add] at this

theorem plan_none (u : Updater) (env : UpdEnv) (h : u.plan env = .ok none) : UpToDate u env := by
  unfold Updater.plan at h
  split at h
  · rename_i h0
    simp only [Bool.and_eq_true, Bool.not_eq_true', beq_iff_eq] at h0
    exact ⟨h0.1, Or.inl h0.2⟩
  · obtain ⟨r, hr, h⟩ := except_bind_ok.1 h
    split at h
    · rename_i h1
      simp only [Bool.and_eq_true, Bool.not_eq_true', beq_iff_eq] at h1
      exact ⟨h1.1, Or.inr ⟨r, (C46_release env u.version r).1 hr, h1.2.symm⟩⟩
    · split at h
      · cases h
      · obtain ⟨vs', hv, h⟩ := except_bind_ok.1 h
        cases h

/-- The three ways an update can go. -/
theorem update_cases (u : Updater) (env : UpdEnv) (w : World) :
    (UpToDate u env ∧ u.update env w = (.ok (), w)) ∨ (∃ e, u.plan env = .error e ∧ u.update env w = (.err e, w)) ∨
    (∃ vs, u.plan env = .ok (some vs) ∧ u.update env w = swapAll u.binPath env.names [] vs w) := by
  cases hp : u.plan env with
  | error e =>
    refine Or.inr (Or.inl ⟨e, rfl, ?_⟩)
    show Act.bind (Act.ofExcept (u.plan env)) _ w = _
    rw [hp]
    rfl
  | ok x =>
    cases x with
    | none =>
      refine Or.inl ⟨plan_none u env hp, ?_⟩
      show Act.bind (Act.ofExcept (u.plan env)) _ w = _
      rw [hp]
      rfl
    | some vs =>
      refine Or.inr (Or.inr ⟨vs, rfl, ?_⟩)
      show Act.bind (Act.ofExcept (u.plan env)) _ w = _
      rw [hp]
      rfl

theorem targets_dot (u : Updater) : ∀ t ∈ u.targets, '.' ∉ t.name := by
  unfold Updater.targets
  split <;> decide

theorem targets_nodup (u : Updater) : (u.targets.map (·.name)).Nodup := by
  unfold Updater.targets
  split <;> decide

/-- The list to install mirrors the list of targets. -/
theorem fetched_mem {u : Updater} {env : UpdEnv} {r : Release} {vs : List Verified} (hl : vs.length = u.targets.length)
    (hk : ∀ (i : Nat) (t : Target) (v : Verified), u.targets[i]? = some t → vs[i]? = some v → Fetched env r i t v) :
    (∀ v ∈ vs, ∃ (i : Nat) (t : Target), u.targets[i]? = some t ∧ Fetched env r i t v) ∧
    (∀ (i : Nat) (t : Target), u.targets[i]? = some t → ∃ v ∈ vs, Fetched env r i t v) ∧ vs.map (·.name) = u.targets.map (·.name) := by
  refine ⟨?_, ?_, ?_⟩
  · intro v hv
    obtain ⟨i, hi, rfl⟩ := List.mem_iff_getElem.1 hv
    have hi' : i < u.targets.length := hl ▸ hi
    exact ⟨i, u.targets[i], List.getElem?_eq_getElem hi', hk i _ _ (List.getElem?_eq_getElem hi') (List.getElem?_eq_getElem hi)⟩
  · intro i t ht
    obtain ⟨hi, rfl⟩ := List.getElem?_eq_some_iff.1 ht
    have hi' : i < vs.length := hl.symm ▸ hi
    exact ⟨vs[i], List.getElem_mem hi', hk i _ _ ht (List.getElem?_eq_getElem hi')⟩
  · apply List.ext_getElem?
    intro i
    rw [List.getElem?_map, List.getElem?_map]
    by_cases hi : i < vs.length
    · have hi' : i < u.targets.length := hl ▸ hi
      rw [List.getElem?_eq_getElem hi, List.getElem?_eq_getElem hi']
      simp only [Option.map_some, Option.some.injEq]
      exact (hk i _ _ (List.getElem?_eq_getElem hi') (List.getElem?_eq_getElem hi)).1
    · have hi' : ¬ i < u.targets.length := hl ▸ hi
      rw [List.getElem?_eq_none (by omega), List.getElem?_eq_none (by omega)]
      rfl

/-- Everything known about an update that goes ahead. -/
theorem update_swapped (u : Updater) (env : UpdEnv) (w : World) (vs : List Verified) (h : u.plan env = .ok (some vs)) :
    Swapped u.binPath vs (swapAll u.binPath env.names [] vs w).1 w (swapAll u.binPath env.names [] vs w).2 := by
  obtain ⟨r, _, _, _, hl, hk⟩ := plan_some u env vs h
  obtain ⟨h1, _, h3⟩ := fetched_mem hl hk
  refine swapAll_start u.binPath env.names vs ?_ (by rw [h3]; exact targets_nodup u) w
  intro v hv
  obtain ⟨i, t, ht, hf⟩ := h1 v hv
  rw [hf.1]
  exact targets_dot u t (List.mem_of_getElem? ht)

/-! ## C43 -/

/-- **C43**, first part: unless a release was chosen all of whose binaries verify, nothing at all is changed, and unless the program was up to date an
error is reported. -/
theorem C43_nothing_touched (u : Updater) (env : UpdEnv) (w : World) (h : ¬ ∃ r, ChosenRelease env u.version r ∧ AllAuthentic u env r) :
    (u.update env w).2 = w ∧ (¬ UpToDate u env → ∃ e, (u.update env w).1 = .err e) := by
  rcases update_cases u env w with ⟨hu, he⟩ | ⟨e, _, he⟩ | ⟨vs, hp, _⟩
  · rw [he]
    exact ⟨rfl, fun h => absurd hu h⟩
  · rw [he]
    exact ⟨rfl, fun _ => ⟨e, rfl⟩⟩
  · obtain ⟨r, hc, _, _, hl, hk⟩ := plan_some u env vs hp
    refine absurd ⟨r, hc, ?_⟩ h
    intro i t ht
    obtain ⟨_, h2, _⟩ := fetched_mem hl hk
    obtain ⟨v, _, hf⟩ := h2 i t ht
    exact ⟨v.bytes, hf.2.2.2⟩

/-- **C43**, second part: at every outcome (success, error, or death at any point, whatever fails on the way) only the binaries, their `.old` copies
and temporary files next to them may differ; a binary is absent, or verified, or (a prefix of) what was there before the update, or the `.old` copy that was there. -/
theorem C43_only_verified (u : Updater) (env : UpdEnv) (w : World) :
    (∀ q, (∀ t ∈ u.targets, q ≠ binFile u.binPath t.name ∧ q ≠ binFile u.binPath t.name ++ ".old".toList ∧ ¬ IsTmpOf (binFile u.binPath t.name) q) →
      (u.update env w).2.fs q = w.fs q) ∧
    (∀ (i : Nat) (t : Target), u.targets[i]? = some t → ∀ f, (u.update env w).2.fs (binFile u.binPath t.name) = some f →
      (∃ r, ChosenRelease env u.version r ∧ Authentic env r i t.pfx f.data) ∨
      (∃ g, w.fs (binFile u.binPath t.name) = some g ∧ f.data <+: g.data) ∨ w.fs (binFile u.binPath t.name ++ ".old".toList) = some f) := by
  have same : (u.update env w).2 = w → (∀ q, (∀ t ∈ u.targets, q ≠ binFile u.binPath t.name ∧ q ≠ binFile u.binPath t.name ++ ".old".toList ∧ ¬ IsTmpOf (binFile u.binPath t.name) q) →
      (u.update env w).2.fs q = w.fs q) ∧
    (∀ (i : Nat) (t : Target), u.targets[i]? = some t → ∀ f, (u.update env w).2.fs (binFile u.binPath t.name) = some f →
      (∃ r, ChosenRelease env u.version r ∧ Authentic env r i t.pfx f.data) ∨
      (∃ g, w.fs (binFile u.binPath t.name) = some g ∧ f.data <+: g.data) ∨ w.fs (binFile u.binPath t.name ++ ".old".toList) = some f) := by
    intro he
    rw [he]
    exact ⟨fun _ _ => rfl, fun _ _ _ f hf => Or.inr (Or.inl ⟨f, hf, List.prefix_refl _⟩)⟩
  rcases update_cases u env w with ⟨_, he⟩ | ⟨e, _, he⟩ | ⟨vs, hp, he⟩
  · exact same (by rw [he])
  · exact same (by rw [he])
  · have hs := update_swapped u env w vs hp
    rw [he]
    obtain ⟨r, hc, _, _, hl, hk⟩ := plan_some u env vs hp
    obtain ⟨h1, h2, _⟩ := fetched_mem hl hk
    refine ⟨?_, ?_⟩
    · intro q hq
      refine hs.touch.fs q ?_
      rintro ⟨v, hv, hr⟩
      obtain ⟨i, t, ht, hf⟩ := h1 v hv
      have := hq t (List.mem_of_getElem? ht)
      rw [hf.1] at hr
      rcases hr with hr | hr | hr
      · exact this.1 hr
      · exact this.2.1 hr
      · exact this.2.2 hr
    · intro i t ht f hf
      obtain ⟨v, hv, hfv⟩ := h2 i t ht
      have := hs.target v hv f (by rw [hfv.1]; exact hf)
      rw [hfv.1] at this
      rcases this with h | h | h
      · exact Or.inl ⟨r, hc, h ▸ hfv.2.2.2⟩
      · exact Or.inr (Or.inl h)
      · exact Or.inr (Or.inr h)

/-- **C43**, third part: a successful update that was not a no-op has put a verified binary of the chosen release, with the documented mode and owner, in
every place. -/
theorem C43_success (u : Updater) (env : UpdEnv) (w : World) (hok : (u.update env w).1 = .ok ()) (hn : ¬ UpToDate u env) :
    ∃ r, ChosenRelease env u.version r ∧ u.targets.map (fun t => (String.ofList t.name, t.mode, t.owner.map String.ofList)) = binaries u.server ∧
      ∀ (i : Nat) (t : Target), u.targets[i]? = some t → ∃ f, (u.update env w).2.fs (binFile u.binPath t.name) = some f ∧ Authentic env r i t.pfx f.data ∧ f.mode = t.mode ∧
        ∀ user, t.owner = some user → f.owner = ⟨user, user⟩ := by
  rcases update_cases u env w with ⟨hu, _⟩ | ⟨e, _, he⟩ | ⟨vs, hp, he⟩
  · exact absurd hu hn
  · rw [he] at hok
    cases hok
  · have hs := update_swapped u env w vs hp
    rw [he] at hok ⊢
    obtain ⟨r, hc, _, _, hl, hk⟩ := plan_some u env vs hp
    obtain ⟨_, h2, _⟩ := fetched_mem hl hk
    refine ⟨r, hc, ?_, ?_⟩
    · unfold Updater.targets binaries
      split <;> decide
    · intro i t ht
      obtain ⟨v, hv, hf⟩ := h2 i t ht
      obtain ⟨f, hff, hd, hm, ho⟩ := (hs.done hok v hv).1
      rw [hf.1] at hff
      refine ⟨f, hff, hd ▸ hf.2.2.2, hm.trans hf.2.1, ?_⟩
      intro user hu
      refine ho user (hf.2.2.1.trans hu) ?_
      have : ∀ t ∈ u.targets, t.owner ≠ some [] := by
        unfold Updater.targets
        split <;> decide
      rintro rfl
      exact this t (List.mem_of_getElem? ht) hu

/-! ## C45 -/

/-- **C45**: an update with neither `--version` nor `--force` does not go from `vX.Y.Z` to a lower `vX'.Y'.Z'`: it changes nothing and reports the refusal. -/
theorem C45_no_downgrade (u : Updater) (env : UpdEnv) (w : World) (hf : u.force = false) (hv : u.version = none) (r : Release) (hr : ChosenRelease env none r)
    (x y z x' y' z' : Nat) (hx : x < 2 ^ 64) (hy : y < 2 ^ 64) (hz : z < 2 ^ 64) (hx' : x' < 2 ^ 64) (hy' : y' < 2 ^ 64) (hz' : z' < 2 ^ 64)
    (hcur : env.current = versionText x y z) (htag : r.tag = versionText x' y' z') (hlow : Lower (x', y', z') (x, y, z)) :
    u.update env w = (.err .downgrade, w) := by
  obtain ⟨b, hb, hbl⟩ := C45_comparison x y z x' y' z' hx hy hz hx' hy' hz'
  have hd : isDowngrade env.current r.tag = some true := by
    rw [hcur, htag, hb, hbl.2 hlow]
  have hne : env.current ≠ r.tag := by
    rw [hcur, htag]
    intro h
    obtain ⟨h1, h2, h3⟩ := C45_text_injective x y z x' y' z' hx hy hz hx' hy' hz' h
    subst h1 h2 h3
    exact (C45_order _ (0, 0, 0) (0, 0, 0)).1 hlow
  have hp : u.plan env = .error .downgrade := by
    unfold Updater.plan
    rw [hv, (C46_release env none r).2 hr]
    simp only [hf, Bool.not_false, Bool.true_and]
    rw [if_neg (by simp)]
    show (if (env.current == r.tag) = true then (pure none : Except Err (Option (List Verified))) else _) = _
    rw [if_neg (by simpa using hne), hd]
    rfl
  show Act.bind (Act.ofExcept (u.plan env)) _ w = _
  rw [hp]
  rfl

/-- **C45**: an explicit version: on success either it is the running version (and nothing was done) or the installed release has exactly that tag. -/
theorem C45_explicit (u : Updater) (env : UpdEnv) (w : World) (v : List Char) (hv : u.version = some v) (hok : (u.update env w).1 = .ok ()) :
    (u.force = false ∧ v = env.current ∧ (u.update env w).2 = w) ∨
    ∃ r, r.tag = v ∧ ChosenRelease env (some v) r ∧ ∀ (i : Nat) (t : Target), u.targets[i]? = some t →
      ∃ f, (u.update env w).2.fs (binFile u.binPath t.name) = some f ∧ Authentic env r i t.pfx f.data := by
  have htag : ∀ r, ChosenRelease env (some v) r → r.tag = v := by
    rintro r ⟨_, _, _, _, _, h, _⟩
    exact h
  by_cases hu : UpToDate u env
  · have hw : (u.update env w).2 = w := by
      rcases update_cases u env w with ⟨_, he⟩ | ⟨e, _, he⟩ | ⟨vs, hp, _⟩
      · rw [he]
      · rw [he]
      · obtain ⟨_, _, hn, _⟩ := plan_some u env vs hp
        exact absurd hu hn
    refine Or.inl ⟨hu.1, ?_, hw⟩
    rcases hu.2 with h | ⟨r, hr, ht⟩
    · rw [hv] at h
      exact Option.some.inj h
    · rw [hv] at hr
      exact (htag r hr).symm.trans ht
  · obtain ⟨r, hc, _, hin⟩ := C43_success u env w hok hu
    rw [hv] at hc
    refine Or.inr ⟨r, htag r hc, hc, fun i t ht => ?_⟩
    obtain ⟨f, h1, h2, _⟩ := hin i t ht
    exact ⟨f, h1, h2⟩

/-- **C45**, the exceptions: what a forced update does, and what an update to an explicitly named other version does, does not depend on the running version; so an older release is
installed like any other (`C43_success`). -/
theorem C45_older_on_request (u : Updater) (env : UpdEnv) (w : World) (current : List Char)
    (h : u.force = true ∨ ∃ v, u.version = some v ∧ v ≠ env.current ∧ v ≠ current) : u.update { env with current := current } w = u.update env w := by
  have hd : ∀ r i ts, downloadAll { env with current := current } r i ts = downloadAll env r i ts := by
    intro r i ts
    induction ts generalizing i with
    | nil => rfl
    | cons t ts ih =>
      unfold downloadAll
      rw [ih]
      rfl
  have hp : u.plan { env with current := current } = u.plan env := by
    unfold Updater.plan
    rcases h with hf | ⟨v, hv, h1, h2⟩
    · simp only [hf, hd]
      rfl
    · simp only [hv, hd]
      have e1 : (some v == some env.current) = false := by simpa using h1
      have e2 : (some v == some current) = false := by simpa using h2
      simp only [e1, e2, Bool.and_false, Option.isNone_some, Bool.false_and, Bool.false_eq_true, if_false]
      cases hr : selectRelease env.releases (some v) with
      | error e => rfl
      | ok r =>
        have ht : r.tag = v := by
          obtain ⟨_, _, _, _, _, h, _⟩ := (C46_release env (some v) r).1 hr
          exact h
        subst ht
        have e3 : (env.current == r.tag) = false := by simpa using fun h => h1 h.symm
        have e4 : (current == r.tag) = false := by simpa using fun h => h2 h.symm
        simp only [bind, Except.bind, e3, e4, Bool.and_false, Bool.false_eq_true, if_false]
  unfold Updater.update
  rw [hp]

/-! ## C44 -/

/-- **C44**, proved part. Hypotheses: no `stat`, backup copy or rollback step failed, and there was no `.old` file without its binary. Then a failed update
leaves every binary with its previous contents and mode; and even if the process dies on the way, every binary has either its previous contents and mode or
is the verified new one. Missing: without these hypotheses the property is false (see the refutations below). -/
theorem C44_all_or_nothing_partial (u : Updater) (env : UpdEnv) (w : World) (hq : Smooth (u.update env w).2.log)
    (hstale : ∀ t ∈ u.targets, w.fs (binFile u.binPath t.name) = none → w.fs (binFile u.binPath t.name ++ ".old".toList) = none)
    (i : Nat) (t : Target) (ht : u.targets[i]? = some t) :
    (∀ e, (u.update env w).1 = .err e → SameBin ((u.update env w).2.fs (binFile u.binPath t.name)) (w.fs (binFile u.binPath t.name))) ∧
    (SameBin ((u.update env w).2.fs (binFile u.binPath t.name)) (w.fs (binFile u.binPath t.name)) ∨
      ∃ r f, ChosenRelease env u.version r ∧ (u.update env w).2.fs (binFile u.binPath t.name) = some f ∧ Authentic env r i t.pfx f.data) := by
  rcases update_cases u env w with ⟨_, he⟩ | ⟨e, _, he⟩ | ⟨vs, hp, he⟩
  · rw [he]
    exact ⟨nofun, Or.inl rfl⟩
  · rw [he]
    exact ⟨fun _ _ => rfl, Or.inl rfl⟩
  · have hs := update_swapped u env w vs hp
    rw [he] at hq ⊢
    obtain ⟨r, hc, _, _, hl, hk⟩ := plan_some u env vs hp
    obtain ⟨_, h2, _⟩ := fetched_mem hl hk
    obtain ⟨v, hv, hf⟩ := h2 i t ht
    have := hs.undone hq v hv (by rw [hf.1]; exact hstale t (List.mem_of_getElem? ht))
    rw [hf.1] at this
    refine ⟨fun e he => (this.1 e he).1, this.2.imp id ?_⟩
    rintro ⟨f, hff, hd⟩
    exact ⟨r, f, hc, hff, hd ▸ hf.2.2.2⟩

/-! ### A concrete installation -/

def exAssets (tag : String) : List Asset :=
  ["client", "client-ui", "commander", "server"].flatMap fun p =>
    let n := p ++ "-" ++ tag ++ "-x86_64-linux"
    [⟨n.toList, ("u/" ++ n).toList⟩, ⟨(n ++ ".sig").toList, ("u/" ++ n ++ ".sig").toList⟩]

/-- Running v0.5.0; published: v0.7.0 (prerelease), v0.6.0, v0.5.0. -/
def exUpdEnv : UpdEnv where
  current := "v0.5.0".toList
  arch := "x86_64".toList
  os := "linux".toList
  releases := some [⟨"v0.7.0".toList, [], true⟩, ⟨"v0.6.0".toList, exAssets "v0.6.0", false⟩, ⟨"v0.5.0".toList, [], false⟩]
  fetch i _ := some (if i % 2 = 0 then [7, 7, 7] else [1])
  verify _ sig := sig == [1]
  names := true

def exUpdater : Updater := ⟨false, none, "/b".toList, true⟩
def exCmdBin : Path := "/b/ruroco-commander".toList
def exSrvBin : Path := "/b/ruroco-server".toList
def exCmdOld : File := ⟨[1, 2, 3], 0o100, true, .creator⟩
def exSrvOld : File := ⟨[4, 5, 6], 0o500, true, ⟨"ruroco".toList, "ruroco".toList⟩⟩

def exUpdWorld (oracle : List Choice) : World :=
  { fs := fun p => if p = exCmdBin then some exCmdOld else if p = exSrvBin then some exSrvOld else none
    pend := fun _ => [], clock := List.replicate 9 (some 5), oracle := oracle, umask := 0o022, cur := [], log := [] }

instance (l : List Event) : Decidable (Smooth l) :=
  decidable_of_iff (l.all (fun e => match e with
    | .statFailed _ => false
    | .copyFailed _ => false
    | .rollbackFailed _ => false
    | _ => true) = true) (by
    rw [List.all_eq_true]
    constructor
    · intro h p
      exact ⟨fun hm => absurd (h _ hm) nofun, fun hm => absurd (h _ hm) nofun, fun hm => absurd (h _ hm) nofun⟩
    · intro h e he
      cases e with
      | statFailed p => exact absurd he (h p).1
      | copyFailed p => exact absurd he (h p).2.1
      | rollbackFailed p => exact absurd he (h p).2.2
      | _ => rfl)

/-- Everything works: both binaries are replaced. -/
example : (exUpdater.update exUpdEnv (exUpdWorld [])).1 = .ok () ∧ content (exUpdater.update exUpdEnv (exUpdWorld [])).2 exCmdBin = some [7, 7, 7] ∧
    content (exUpdater.update exUpdEnv (exUpdWorld [])).2 exSrvBin = some [7, 7, 7] := by decide +kernel

/-- The hypotheses of `C44_all_or_nothing_partial` with a failing update: changing the owner of the server binary fails after both binaries were replaced; both
are restored. -/
example : Smooth (exUpdater.update exUpdEnv (exUpdWorld (List.replicate 24 .ok ++ [.err 0]))).2.log ∧
    (exUpdater.update exUpdEnv (exUpdWorld (List.replicate 24 .ok ++ [.err 0]))).1 = .err .io ∧
    content (exUpdater.update exUpdEnv (exUpdWorld (List.replicate 24 .ok ++ [.err 0]))).2 exCmdBin = some [1, 2, 3] ∧
    content (exUpdater.update exUpdEnv (exUpdWorld (List.replicate 24 .ok ++ [.err 0]))).2 exSrvBin = some [4, 5, 6] := by decide +kernel

/-- A bad signature: nothing is touched. -/
example : (exUpdater.update { exUpdEnv with verify := fun _ _ => false } (exUpdWorld [])).1 = .err .signature := by decide +kernel

/-- A lower latest release is refused. -/
example : (exUpdater.update { exUpdEnv with releases := some [⟨"v0.4.9".toList, exAssets "v0.4.9", false⟩] } (exUpdWorld [])).1 = .err .downgrade := by decide +kernel

/-- ... but installed when asked for. -/
example : ({ exUpdater with version := some "v0.4.9".toList }.update { exUpdEnv with releases := some [⟨"v0.4.9".toList, exAssets "v0.4.9", false⟩] } (exUpdWorld [])).1 = .ok () := by
  decide +kernel

/-! ### Refutations of the unrestricted C44 -/

/-- **C44 is false** if backing up a binary fails before its copy exists: the rollback takes the missing copy to mean that the binary was not there before the
update, and removes the working binary. Only one call failed. -/
theorem C44_failed_backup_deletes_binary : ∃ (u : Updater) (env : UpdEnv) (w : World) (f : File), (∀ q, w.fs (oldPath q) = none) ∧ w.fs (binFile u.binPath "ruroco-commander".toList) = some f ∧
    (∃ e, (u.update env w).1 = .err e) ∧ (u.update env w).2.fs (binFile u.binPath "ruroco-commander".toList) = none := by
  refine ⟨exUpdater, exUpdEnv, exUpdWorld [.ok, .err 0], exCmdOld, ?_, by decide +kernel, ⟨.io, by decide +kernel⟩, by decide +kernel⟩
  intro q
  have h : ∀ p : Path, p.getLast? = some 'r' → oldPath q ≠ p := by
    rintro p hp rfl
    unfold oldPath at hp
    rw [show ".old".toList = ".ol".toList ++ ['d'] from rfl, ← List.append_assoc, List.getLast?_concat] at hp
    revert hp
    decide
  show (if oldPath q = exCmdBin then some exCmdOld else if oldPath q = exSrvBin then some exSrvOld else none) = none
  rw [if_neg (h _ (by decide)), if_neg (h _ (by decide))]

/-- **C44 is false** if the backup copy stops half-way (for instance because the disk is full): the rollback puts the incomplete copy in the place of the intact
binary. -/
theorem C44_partial_backup_truncates_binary : ∃ (u : Updater) (env : UpdEnv) (w : World) (f g : File), w.fs (binFile u.binPath "ruroco-commander".toList) = some f ∧
    (∃ e, (u.update env w).1 = .err e) ∧ (u.update env w).2.fs (binFile u.binPath "ruroco-commander".toList) = some g ∧ g.data <+: f.data ∧ g.data.length < f.data.length :=
  ⟨exUpdater, exUpdEnv, exUpdWorld [.ok, .ok, .ok, .ok, .err 2], exCmdOld, ⟨[1, 2], 0o100, false, .creator⟩, by decide +kernel, ⟨.io, by decide +kernel⟩, by decide +kernel,
    ⟨[3], by decide⟩, by decide⟩

/-- **C44 is false** if looking for the existing binary fails (`Path::exists` reports any error as absence): no backup is made, and when a later step fails the
rollback deletes the binary. -/
theorem C44_failed_stat_deletes_binary : ∃ (u : Updater) (env : UpdEnv) (w : World) (f : File), w.fs (binFile u.binPath "ruroco-server".toList) = some f ∧
    (∃ e, (u.update env w).1 = .err e) ∧ (u.update env w).2.fs (binFile u.binPath "ruroco-server".toList) = none :=
  ⟨exUpdater, { exUpdEnv with names := false }, exUpdWorld (List.replicate 12 .ok ++ [.err 0]), exSrvOld, by decide +kernel, ⟨.io, by decide +kernel⟩, by decide +kernel⟩

/-- **C44 is false** with a left-over `.old` file: a failed update of a missing binary "restores" the left-over, although no call but the write failed. -/
theorem C44_stale_backup_installed : ∃ (u : Updater) (env : UpdEnv) (w : World) (f : File), w.fs (binFile u.binPath "ruroco-commander".toList) = none ∧
    (∃ e, (u.update env w).1 = .err e) ∧ Smooth (u.update env w).2.log ∧ (u.update env w).2.fs (binFile u.binPath "ruroco-commander".toList) = some f :=
  ⟨exUpdater, exUpdEnv, { exUpdWorld [.ok, .err 0] with fs := fun p => if p = oldPath exCmdBin then some ⟨[9], 0o100, true, .creator⟩ else none }, ⟨[9], 0o100, true, .creator⟩,
    by decide +kernel, ⟨.io, by decide +kernel⟩, by decide +kernel, by decide +kernel⟩

/-- A process that dies between the two binaries leaves a new one beside an old one. -/
theorem C44_crash_mixes : ∃ (u : Updater) (env : UpdEnv) (w : World), (u.update env w).1 = .crash ∧ Smooth (u.update env w).2.log ∧
    content (u.update env w).2 (binFile u.binPath "ruroco-commander".toList) ≠ content w (binFile u.binPath "ruroco-commander".toList) ∧
    content (u.update env w).2 (binFile u.binPath "ruroco-server".toList) = content w (binFile u.binPath "ruroco-server".toList) :=
  ⟨exUpdater, exUpdEnv, exUpdWorld (List.replicate 13 .ok ++ [.crash 0]), by decide +kernel, by decide +kernel, by decide +kernel, by decide +kernel⟩

/-! ## C59: the server binary stays usable after a failed update -/

instance (w : World) (p : Path) (user : List Char) : Decidable (ExecutableBy w p user) := by
  unfold ExecutableBy
  cases w.fs p with
  | none => exact isFalse (by rintro ⟨_, h, _⟩; cases h)
  | some f => exact decidable_of_iff ((f.owner.user = user ∧ f.mode &&& 0o100 ≠ 0) ∨ f.mode &&& 0o001 ≠ 0) ⟨fun h => ⟨f, rfl, h⟩, by rintro ⟨_, h, h'⟩; cases h; exact h'⟩

/-- **C59 is false**: the rollback brings back the copy, which belongs to the user running the updater, not to `ruroco`; after an update that failed (here: changing the owner
of the new server binary) and was rolled back without any further failure the server's user can no longer execute the server. -/
theorem C59_rollback_loses_owner : ∃ (u : Updater) (env : UpdEnv) (w : World), ExecutableBy w (binFile u.binPath "ruroco-server".toList) "ruroco".toList ∧
    (∃ e, (u.update env w).1 = .err e) ∧ Smooth (u.update env w).2.log ∧ ¬ ExecutableBy (u.update env w).2 (binFile u.binPath "ruroco-server".toList) "ruroco".toList :=
  ⟨exUpdater, exUpdEnv, exUpdWorld (List.replicate 24 .ok ++ [.err 0]), by decide +kernel, ⟨.io, by decide +kernel⟩, by decide +kernel, by decide +kernel⟩

/-- **C59**, proved part: after a successful server update, and after one that failed before installing anything, the server's user can execute the server (if it could before).
Missing: updates that fail while installing, for which the property is false. -/
theorem C59_executable_partial (u : Updater) (env : UpdEnv) (w : World) (hs : u.server = true)
    (hw : ExecutableBy w (binFile u.binPath "ruroco-server".toList) "ruroco".toList)
    (h : (u.update env w).1 = .ok () ∨ ¬ ∃ r, ChosenRelease env u.version r ∧ AllAuthentic u env r) :
    ExecutableBy (u.update env w).2 (binFile u.binPath "ruroco-server".toList) "ruroco".toList := by
  rcases h with hok | hn
  · rcases update_cases u env w with ⟨hu, he⟩ | ⟨e, _, he⟩ | ⟨vs, hp, _⟩
    · rw [he]
      exact hw
    · rw [he] at hok
      cases hok
    · obtain ⟨_, _, hn, _⟩ := plan_some u env vs hp
      obtain ⟨r, _, _, hin⟩ := C43_success u env w hok hn
      obtain ⟨f, hf, _, hm, ho⟩ := hin 1 ⟨"server".toList, "ruroco-server".toList, 0o500, some "ruroco".toList⟩ (by unfold Updater.targets; rw [hs]; rfl)
      exact ⟨f, hf, Or.inl ⟨by rw [ho _ rfl], by rw [hm]; decide⟩⟩
  · rw [(C43_nothing_touched u env w hn).1]
    exact hw

/-- **C59**, updates that fail while installing (without a further failure): the server binary has its contents and permissions, and it is either the very file that was there, or it belongs
to the owner of the copy, who is the owner of an earlier copy if there was one and else the user running the updater. -/
theorem C59_after_failure (u : Updater) (env : UpdEnv) (w : World) (hs : u.server = true) (hq : Smooth (u.update env w).2.log) (e : Err) (herr : (u.update env w).1 = .err e)
    (f : File) (hf : w.fs (binFile u.binPath "ruroco-server".toList) = some f) :
    ∃ g, (u.update env w).2.fs (binFile u.binPath "ruroco-server".toList) = some g ∧ g.data = f.data ∧ g.mode = f.mode ∧
      (g = f ∨ g.owner = copyOwner (w.fs (binFile u.binPath "ruroco-server".toList ++ ".old".toList))) := by
  rcases update_cases u env w with ⟨_, he⟩ | ⟨e, _, he⟩ | ⟨vs, hp, he⟩
  · rw [he]
    exact ⟨f, hf, rfl, rfl, Or.inl rfl⟩
  · rw [he]
    exact ⟨f, hf, rfl, rfl, Or.inl rfl⟩
  · have hsw := update_swapped u env w vs hp
    rw [he] at hq herr ⊢
    obtain ⟨r, hc, _, _, hl, hk⟩ := plan_some u env vs hp
    obtain ⟨_, h2, _⟩ := fetched_mem hl hk
    obtain ⟨v, hv, hn, _⟩ := h2 1 ⟨"server".toList, "ruroco-server".toList, 0o500, some "ruroco".toList⟩ (by unfold Updater.targets; rw [hs]; rfl)
    have hn' : v.name = "ruroco-server".toList := hn
    have := hsw.undone hq v hv (by rw [hn', hf]; nofun)
    rw [hn'] at this
    obtain ⟨hsame, hown⟩ := this.1 e herr
    rw [hf] at hsame hown
    unfold SameBin at hsame
    cases hg : (swapAll u.binPath env.names [] vs w).2.fs (binFile u.binPath "ruroco-server".toList) with
    | none => rw [hg] at hsame; cases hsame
    | some g =>
      rw [hg] at hsame hown
      simp only [Option.map_some, Option.some.injEq, Prod.mk.injEq] at hsame
      refine ⟨g, rfl, hsame.1, hsame.2, ?_⟩
      rcases hown with h | h
      · exact Or.inl (Option.some.inj h)
      · exact Or.inr (h g rfl)

/-- **C59**, exactly when it holds for a server binary as installed (only its owner may execute it) without an earlier copy beside it: after an update that failed (without a further failure) the
server's user can execute it if and only if the update had not yet got to it. -/
theorem C59_lost_iff (u : Updater) (env : UpdEnv) (w : World) (hs : u.server = true) (hq : Smooth (u.update env w).2.log) (e : Err) (herr : (u.update env w).1 = .err e)
    (f : File) (hf : w.fs (binFile u.binPath "ruroco-server".toList) = some f) (hx : ExecutableBy w (binFile u.binPath "ruroco-server".toList) "ruroco".toList)
    (hm : f.mode &&& 0o001 = 0) (hold : w.fs (binFile u.binPath "ruroco-server".toList ++ ".old".toList) = none) :
    ExecutableBy (u.update env w).2 (binFile u.binPath "ruroco-server".toList) "ruroco".toList ↔
      (u.update env w).2.fs (binFile u.binPath "ruroco-server".toList) = w.fs (binFile u.binPath "ruroco-server".toList) := by
  obtain ⟨g, hg, _, hgm, hgo⟩ := C59_after_failure u env w hs hq e herr f hf
  rw [hold] at hgo
  constructor
  · rintro ⟨g', hg', h | h⟩
    · rw [hg] at hg'
      cases hg'
      rcases hgo with rfl | ho
      · rw [hg, hf]
      · rw [ho] at h
        exact absurd h.1 (by decide)
    · rw [hg] at hg'
      cases hg'
      rw [hgm] at h
      exact absurd hm h
  · intro h
    unfold ExecutableBy
    rw [h]
    exact hx

/-- **C59**, a server binary that everybody may execute stays so whatever happens in the update short of a further failure. -/
theorem C59_executable_for_all (u : Updater) (env : UpdEnv) (w : World) (hs : u.server = true) (hq : Smooth (u.update env w).2.log) (e : Err) (herr : (u.update env w).1 = .err e)
    (f : File) (hf : w.fs (binFile u.binPath "ruroco-server".toList) = some f) (hm : f.mode &&& 0o001 ≠ 0) (user : List Char) :
    ExecutableBy (u.update env w).2 (binFile u.binPath "ruroco-server".toList) user := by
  obtain ⟨g, hg, _, hgm, _⟩ := C59_after_failure u env w hs hq e herr f hf
  exact ⟨g, hg, Or.inr (by rw [hgm]; exact hm)⟩

example : ExecutableBy (exUpdWorld []) (binFile exUpdater.binPath "ruroco-server".toList) "ruroco".toList := by decide +kernel

/-- The hypotheses of `C59_lost_iff`: changing the owner of the server binary fails, after it was replaced. -/
example : (exUpdater.update exUpdEnv (exUpdWorld (List.replicate 24 .ok ++ [.err 0]))).1 = .err .io ∧ Smooth (exUpdater.update exUpdEnv (exUpdWorld (List.replicate 24 .ok ++ [.err 0]))).2.log ∧
    (exUpdWorld (List.replicate 24 .ok ++ [.err 0])).fs exSrvBin = some exSrvOld ∧ exSrvOld.mode &&& 0o001 = 0 ∧
    (exUpdWorld (List.replicate 24 .ok ++ [.err 0])).fs (exSrvBin ++ ".old".toList) = none := by decide +kernel

end Ruroco
