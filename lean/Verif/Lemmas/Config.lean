import Verif.Spec.Config

/-!
# Lemmas on configuration files
-/

namespace Ruroco

open Spec (lookup DistinctKeys IsText IsNumber IsFlag IsAddresses Required Optional Defaulted)

/-- What one field sees of the loop over the entries. -/
def readField (sel : List Char → Bool) (conv : Toml → Except Err α) : Option α → Table → Except Err (Option α)
  | a, [] => .ok a
  | a, e :: rest => if sel e.1 then (fillField a conv e.2).bind (fun a => readField sel conv a rest) else readField sel conv a rest

theorem readField_some {sel : List Char → Bool} {conv : Toml → Except Err α} {a : α} {t : Table} {r : Option α} :
    readField sel conv (some a) t = .ok r ↔ r = some a ∧ ∀ e ∈ t, sel e.1 = false := by
  induction t with
  | nil => simp only [readField, Except.ok.injEq]; constructor
           · rintro rfl; exact ⟨rfl, nofun⟩
           · rintro ⟨rfl, _⟩; rfl
  | cons e rest ih =>
    cases hs : sel e.1 with
    | true => simp [readField, hs, fillField, Except.bind]
    | false => simp [readField, hs, ih]

theorem find_none_iff {t : Table} {key : List Char} : t.find? (fun e => e.1 == key) = none ↔ ∀ e ∈ t, e.1 ≠ key := by
  simp [List.find?_eq_none]

/-- With distinct keys a field is read iff the file has no such key, or its value converts. -/
theorem readField_ok {sel : List Char → Bool} {conv : Toml → Except Err α} {key : String} (hsel : ∀ k, sel k = (k == key.toList)) {t : Table} (hd : DistinctKeys t) {r : Option α} :
    readField sel conv none t = .ok r ↔ (lookup t key = none ∧ r = none) ∨ ∃ x a, lookup t key = some x ∧ conv x = .ok a ∧ r = some a := by
  unfold lookup
  induction t with
  | nil => simp only [readField, Except.ok.injEq, List.find?_nil, Option.map_none, true_and]; constructor
           · rintro rfl; exact .inl rfl
           · rintro (rfl | ⟨_, _, h, _⟩)
             · rfl
             · cases h
  | cons e rest ih =>
    simp only [DistinctKeys, List.map_cons, List.nodup_cons] at hd
    cases hs : sel e.1 with
    | true =>
      have hk : e.1 = key.toList := by rw [hsel] at hs; exact eq_of_beq hs
      have hno : ∀ x ∈ rest, sel x.1 = false := by
        intro x hx
        rw [hsel]
        cases hq : (x.1 == key.toList) with
        | false => rfl
        | true => exact absurd (List.mem_map.2 ⟨x, hx, (eq_of_beq hq).trans hk.symm⟩) hd.1
      have hb : (e.1 == key.toList) = true := by rw [hk]; exact beq_self_eq_true _
      simp only [readField, hs, if_true, fillField, List.find?_cons, hb, Option.map_some]
      cases hc : conv e.2 with
      | error er => simp [Except.map, Except.bind, hc]
      | ok a =>
        simp only [Except.map, Except.bind]
        rw [readField_some]
        refine ⟨fun h => .inr ⟨e.2, a, rfl, hc, h.1⟩, ?_⟩
        rintro (⟨h, _⟩ | ⟨x, a', h, h', rfl⟩)
        · cases h
        · cases h; rw [hc] at h'; cases h'; exact ⟨rfl, hno⟩
    | false =>
      have hk : (e.1 == key.toList) = false := by rw [← hsel, hs]
      simp only [readField, hs, List.find?_cons, hk]
      exact ih hd.2

theorem ofExceptText {x : Toml} {s : List Char} : x.asStr = .ok s ↔ IsText x s := by
  cases x with
  | str s' => exact ⟨fun h => by cases h; exact .str _, fun h => by cases h; rfl⟩
  | _ => exact ⟨nofun, nofun⟩

theorem ofExceptNumber {bits : Nat} {x : Toml} {n : Nat} : x.asUint bits = .ok n ↔ IsNumber bits x n := by
  cases x with
  | int i =>
    unfold Toml.asUint
    constructor
    · intro h
      by_cases hi : 0 ≤ i ∧ i < 2 ^ bits
      · simp only [if_pos hi] at h
        cases h
        obtain ⟨m, rfl⟩ := Int.eq_ofNat_of_zero_le hi.1
        exact .int m (by have := hi.2; simp at this ⊢; exact_mod_cast this)
      · simp only [if_neg hi] at h
        cases h
    · intro h
      cases h with
      | int _ h => show (if _ then _ else _) = _; rw [if_pos ⟨by omega, by exact_mod_cast h⟩]; rfl
  | _ => exact ⟨nofun, nofun⟩

theorem ofExceptFlag {x : Toml} {b : Bool} : x.asBool = .ok b ↔ IsFlag x b := by
  cases x with
  | bool s' => exact ⟨fun h => by cases h; exact .bool _, fun h => by cases h; rfl⟩
  | _ => exact ⟨nofun, nofun⟩

theorem asStrs_ok {l : List Toml} {v : List (List Char)} : l.mapM Toml.asStr = .ok v ↔ l = v.map .str := by
  induction l generalizing v with
  | nil => cases v <;> simp [pure, Except.pure]
  | cons x l ih =>
    rw [List.mapM_cons]
    cases x with
    | str s =>
      show (l.mapM Toml.asStr).bind (fun r => .ok (s :: r)) = .ok v ↔ _
      cases hl : l.mapM Toml.asStr with
      | error e =>
        cases v with
        | nil => simp [Except.bind]
        | cons b v =>
          have : l ≠ v.map .str := fun h => by have := ih.2 h; rw [hl] at this; cases this
          simp [Except.bind, this]
      | ok r =>
        have hr := ih.1 hl
        subst hr
        cases v with
        | nil => simp [Except.bind]
        | cons b v =>
          simp only [Except.bind, Except.ok.injEq, List.cons.injEq, List.map_cons, Toml.str.injEq]
          refine and_congr_right fun _ => ⟨fun h => by rw [h], fun h => ?_⟩
          have := ih.2 h
          rw [hl] at this
          cases this; rfl
    | _ => cases v <;> simp [Toml.asStr, bind, Except.bind]

theorem parseAll_ok {v : List (List Char)} {ps : List Ip} :
    v.mapM parseIpText = .ok ps ↔ v.map parseIp = ps.map some := by
  induction v generalizing ps with
  | nil => cases ps <;> simp [pure, Except.pure]
  | cons s v ih =>
    rw [List.mapM_cons]
    cases hp : parseIp s with
    | none =>
      have : parseIpText s = .error .parse := by unfold parseIpText; rw [hp]
      cases ps <;> simp [bind, Except.bind, hp, this]
    | some ip =>
      have : parseIpText s = .ok ip := by unfold parseIpText; rw [hp]
      rw [this]
      show (v.mapM parseIpText).bind (fun r => .ok (ip :: r)) = .ok ps ↔ _
      cases hl : v.mapM parseIpText with
      | error e =>
        cases ps with
        | nil => simp [Except.bind]
        | cons b ps =>
          have : v.map parseIp ≠ ps.map some := fun h => by have := ih.2 h; rw [hl] at this; cases this
          simp [Except.bind, hp, this]
      | ok r =>
        have hr := ih.1 hl
        cases ps with
        | nil => simp [Except.bind]
        | cons b ps =>
          simp only [Except.bind, Except.ok.injEq, List.cons.injEq, List.map_cons, hp, Option.some.injEq]
          refine and_congr_right fun _ => ⟨fun h => by rw [← h, hr], fun h => ?_⟩
          have := ih.2 h
          rw [hl] at this
          cases this; rfl

theorem isAddresses_iff {l : List Toml} {ips : List Ip} :
    IsAddresses (.arr l) ips ↔ ∃ (v : List (List Char)) (ps : List Ip), l = v.map .str ∧ v.map parseIp = ps.map some ∧ ips = ps.map normalizeIp := by
  constructor
  · intro h
    generalize hx : Toml.arr l = x at h
    induction h generalizing l with
    | nil => cases hx; exact ⟨[], [], rfl, rfl, rfl⟩
    | cons s ip l' ips' hp _ ih =>
      cases hx
      obtain ⟨v, ps, h1, h2, h3⟩ := ih rfl
      exact ⟨s :: v, ip :: ps, by rw [h1]; rfl, by simp [hp, h2], by simp [h3]⟩
  · rintro ⟨v, ps, rfl, h2, rfl⟩
    induction v generalizing ps with
    | nil =>
      cases ps with
      | nil => exact .nil
      | cons _ _ => cases h2
    | cons s v ih =>
      cases ps with
      | nil => cases h2
      | cons ip ps =>
        simp only [List.map_cons, List.cons.injEq] at h2
        exact .cons s ip _ _ h2.1 (ih ps h2.2)

theorem ofExceptAddresses {x : Toml} {ips : List Ip} : x.asIps = .ok ips ↔ IsAddresses x ips := by
  cases x with
  | arr l =>
    rw [isAddresses_iff]
    unfold Toml.asIps Toml.asStrs
    constructor
    · intro h
      cases hl : l.mapM Toml.asStr with
      | error e => simp [hl, bind, Except.bind] at h
      | ok v =>
        simp only [hl, bind, Except.bind] at h
        split at h
        · cases h
        · rename_i ps hps
          cases h
          exact ⟨v, ps, asStrs_ok.1 hl, parseAll_ok.1 hps, rfl⟩
    · rintro ⟨v, ps, h1, h2, rfl⟩
      have h1' := asStrs_ok.2 h1
      have h2' := parseAll_ok.2 h2
      simp only [h1', bind, Except.bind]
      rw [h2']
      rfl
  | _ => exact ⟨nofun, nofun⟩

theorem ServerFields.foldlM_ok {t : Table} {a b : ServerFields} : t.foldlM ServerFields.visit a = .ok b ↔
      readField (fun k => serverField k == .ips) Toml.asIps a.ips t = .ok b.ips ∧
      readField (fun k => serverField k == .address) Toml.asStr a.address t = .ok b.address ∧
      readField (fun k => serverField k == .configDir) Toml.asStr a.configDir t = .ok b.configDir ∧
      readField (fun k => serverField k == .blocklistDir) Toml.asStr a.blocklistDir t = .ok b.blocklistDir ∧
      readField (fun k => serverField k == .socketDir) Toml.asStr a.socketDir t = .ok b.socketDir ∧
      readField (fun k => serverField k == .maxPerIp) (Toml.asUint 32) a.maxPerIp t = .ok b.maxPerIp ∧
      readField (fun k => serverField k == .maxGlobal) (Toml.asUint 32) a.maxGlobal t = .ok b.maxGlobal ∧
      readField (fun k => serverField k == .skewSeconds) (Toml.asUint 64) a.skewSeconds t = .ok b.skewSeconds := by
  induction t generalizing a with
  | nil =>
    simp only [List.foldlM_nil, readField, Except.ok.injEq]
    constructor
    · intro h
      cases h
      simp
    · intro h
      cases a; cases b
      simp at h
      simp [h, pure, Except.pure]
  | cons e rest ih =>
    rw [List.foldlM_cons]
    cases hf : serverField e.1 with
    | ips =>
      simp only [ServerFields.visit, hf, readField]
      cases hc : fillField a.ips Toml.asIps e.2 with
      | error er => simp [Except.map, Except.bind, bind]
      | ok v => simp only [Except.map, bind, Except.bind]; rw [ih]; simp
    | address =>
      simp only [ServerFields.visit, hf, readField]
      cases hc : fillField a.address Toml.asStr e.2 with
      | error er => simp [Except.map, Except.bind, bind]
      | ok v => simp only [Except.map, bind, Except.bind]; rw [ih]; simp
    | configDir =>
      simp only [ServerFields.visit, hf, readField]
      cases hc : fillField a.configDir Toml.asStr e.2 with
      | error er => simp [Except.map, Except.bind, bind]
      | ok v => simp only [Except.map, bind, Except.bind]; rw [ih]; simp
    | blocklistDir =>
      simp only [ServerFields.visit, hf, readField]
      cases hc : fillField a.blocklistDir Toml.asStr e.2 with
      | error er => simp [Except.map, Except.bind, bind]
      | ok v => simp only [Except.map, bind, Except.bind]; rw [ih]; simp
    | socketDir =>
      simp only [ServerFields.visit, hf, readField]
      cases hc : fillField a.socketDir Toml.asStr e.2 with
      | error er => simp [Except.map, Except.bind, bind]
      | ok v => simp only [Except.map, bind, Except.bind]; rw [ih]; simp
    | maxPerIp =>
      simp only [ServerFields.visit, hf, readField]
      cases hc : fillField a.maxPerIp (Toml.asUint 32) e.2 with
      | error er => simp [Except.map, Except.bind, bind]
      | ok v => simp only [Except.map, bind, Except.bind]; rw [ih]; simp
    | maxGlobal =>
      simp only [ServerFields.visit, hf, readField]
      cases hc : fillField a.maxGlobal (Toml.asUint 32) e.2 with
      | error er => simp [Except.map, Except.bind, bind]
      | ok v => simp only [Except.map, bind, Except.bind]; rw [ih]; simp
    | skewSeconds =>
      simp only [ServerFields.visit, hf, readField]
      cases hc : fillField a.skewSeconds (Toml.asUint 64) e.2 with
      | error er => simp [Except.map, Except.bind, bind]
      | ok v => simp only [Except.map, bind, Except.bind]; rw [ih]; simp
    | ignore => simp only [ServerFields.visit, hf, readField, bind, Except.bind]; rw [ih]; simp

theorem CommanderFields.foldlM_ok {t : Table} {a b : CommanderFields} : t.foldlM CommanderFields.visit a = .ok b ↔
      readField (fun k => commanderField k == .configDir) Toml.asStr a.configDir t = .ok b.configDir ∧
      readField (fun k => commanderField k == .socketDir) Toml.asStr a.socketDir t = .ok b.socketDir ∧
      readField (fun k => commanderField k == .socketUser) Toml.asStr a.socketUser t = .ok b.socketUser ∧
      readField (fun k => commanderField k == .socketGroup) Toml.asStr a.socketGroup t = .ok b.socketGroup ∧
      readField (fun k => commanderField k == .allowNonRoutable) Toml.asBool a.allowNonRoutable t = .ok b.allowNonRoutable := by
  induction t generalizing a with
  | nil =>
    simp only [List.foldlM_nil, readField, Except.ok.injEq]
    constructor
    · intro h
      cases h
      simp
    · intro h
      cases a; cases b
      simp at h
      simp [h, pure, Except.pure]
  | cons e rest ih =>
    rw [List.foldlM_cons]
    cases hf : commanderField e.1 with
    | configDir =>
      simp only [CommanderFields.visit, hf, readField]
      cases hc : fillField a.configDir Toml.asStr e.2 with
      | error er => simp [Except.map, Except.bind, bind]
      | ok v => simp only [Except.map, bind, Except.bind]; rw [ih]; simp
    | socketDir =>
      simp only [CommanderFields.visit, hf, readField]
      cases hc : fillField a.socketDir Toml.asStr e.2 with
      | error er => simp [Except.map, Except.bind, bind]
      | ok v => simp only [Except.map, bind, Except.bind]; rw [ih]; simp
    | socketUser =>
      simp only [CommanderFields.visit, hf, readField]
      cases hc : fillField a.socketUser Toml.asStr e.2 with
      | error er => simp [Except.map, Except.bind, bind]
      | ok v => simp only [Except.map, bind, Except.bind]; rw [ih]; simp
    | socketGroup =>
      simp only [CommanderFields.visit, hf, readField]
      cases hc : fillField a.socketGroup Toml.asStr e.2 with
      | error er => simp [Except.map, Except.bind, bind]
      | ok v => simp only [Except.map, bind, Except.bind]; rw [ih]; simp
    | allowNonRoutable =>
      simp only [CommanderFields.visit, hf, readField]
      cases hc : fillField a.allowNonRoutable Toml.asBool e.2 with
      | error er => simp [Except.map, Except.bind, bind]
      | ok v => simp only [Except.map, bind, Except.bind]; rw [ih]; simp
    | ignore => simp only [CommanderFields.visit, hf, readField, bind, Except.bind]; rw [ih]; simp

theorem DetailFields.foldlM_ok {t : Table} {a b : DetailFields} : t.foldlM DetailFields.visit a = .ok b ↔
      readField (fun k => detailField k == .cmd) Toml.asStr a.cmd t = .ok b.cmd ∧
      readField (fun k => detailField k == .timeoutSec) (Toml.asUint 64) a.timeoutSec t = .ok b.timeoutSec := by
  induction t generalizing a with
  | nil =>
    simp only [List.foldlM_nil, readField, Except.ok.injEq]
    constructor
    · intro h
      cases h
      simp
    · intro h
      cases a; cases b
      simp at h
      simp [h, pure, Except.pure]
  | cons e rest ih =>
    rw [List.foldlM_cons]
    cases hf : detailField e.1 with
    | cmd =>
      simp only [DetailFields.visit, hf, readField]
      cases hc : fillField a.cmd Toml.asStr e.2 with
      | error er => simp [Except.map, Except.bind, bind]
      | ok v => simp only [Except.map, bind, Except.bind]; rw [ih]; simp
    | timeoutSec =>
      simp only [DetailFields.visit, hf, readField]
      cases hc : fillField a.timeoutSec (Toml.asUint 64) e.2 with
      | error er => simp [Except.map, Except.bind, bind]
      | ok v => simp only [Except.map, bind, Except.bind]; rw [ih]; simp
    | ignore => simp only [DetailFields.visit, hf, readField, bind, Except.bind]; rw [ih]; simp

end Ruroco
