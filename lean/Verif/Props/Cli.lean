import Verif.Model.Cli
import Verif.Spec.Cli
import Verif.Props.SendContent
import Verif.Props.ClientEffects
import Verif.Props.WizardEffects
import Verif.Props.Update
import Verif.Model.Units

/-!
# C96: command lines
-/

namespace Ruroco

open Spec

/-! ## Looking up options -/

theorem find_of_nodup {α β : Type} [BEq β] [LawfulBEq β] (f : α → β) {t : List α} (hn : (t.map f).Nodup) {d : α} (hd : d ∈ t) : t.find? (fun x => f x == f d) = some d := by
  induction t with
  | nil => cases hd
  | cons x xs ih =>
    rw [List.map_cons, List.nodup_cons] at hn
    rcases List.mem_cons.1 hd with rfl | hd
    · simp
    · have hne : f x ≠ f d := fun e => hn.1 (e ▸ List.mem_map_of_mem hd)
      rw [List.find?_cons_of_neg (by simpa using hne)]
      exact ih hn.2 hd

theorem find_short {t : List OptDef} (hn : (t.filterMap (·.short)).Nodup) {d : OptDef} {c : Char} (hd : d ∈ t) (hc : d.short = some c) : t.find? (fun x => x.short == some c) = some d := by
  induction t with
  | nil => cases hd
  | cons x xs ih =>
    rcases List.mem_cons.1 hd with rfl | hd
    · simp [hc]
    · by_cases hx : x.short = some c
      · rw [List.filterMap_cons, hx, List.nodup_cons] at hn
        exact absurd (List.mem_filterMap.2 ⟨d, hd, hc⟩) hn.1
      · rw [List.find?_cons_of_neg (by simpa using hx)]
        apply ih _ hd
        rw [List.filterMap_cons] at hn
        split at hn
        · exact hn
        · exact (List.nodup_cons.1 hn).2

theorem byLong_mem {t : List OptDef} (ht : TableOk t) {d : OptDef} (hd : d ∈ t) : byLong t d.long = some d := find_of_nodup _ ht.1 hd

theorem byShort_mem {t : List OptDef} (ht : TableOk t) {d : OptDef} {c : Char} (hd : d ∈ t) (hc : d.short = some c) : byShort t c = some d := find_short ht.2.1 hd hc

theorem byLong_some {t : List OptDef} {n : List Char} {d : OptDef} (h : byLong t n = some d) : d ∈ t ∧ d.long = n :=
  ⟨List.mem_of_find?_eq_some h, by simpa using List.find?_some h⟩

theorem byShort_some {t : List OptDef} {c : Char} {d : OptDef} (h : byShort t c = some d) : d ∈ t ∧ d.short = some c :=
  ⟨List.mem_of_find?_eq_some h, by simpa using List.find?_some h⟩

/-! ## Adding options -/

/-- The options have different names. -/
def Distinct (g : Given) : Prop := (g.map (·.1)).Nodup

theorem push_ok_iff {g g' : Given} {n : List Char} {v : Option (List Char)} : g.push n v = .ok g' ↔ n ∉ g.map (·.1) ∧ g' = g ++ [(n, v)] := by
  unfold Given.push
  have : (g.any (fun x => x.1 == n)) = true ↔ n ∈ g.map (·.1) := by
    rw [List.any_eq_true, List.mem_map]
    constructor
    · rintro ⟨x, h1, h2⟩; exact ⟨x, h1, by simpa using h2⟩
    · rintro ⟨x, h1, h2⟩; exact ⟨x, h1, by simpa using h2⟩
  split
  · rename_i h
    constructor
    · intro h'; cases h'
    · rintro ⟨h1, _⟩; exact absurd (this.1 h) h1
  · rename_i h
    constructor
    · intro h'; cases h'; exact ⟨fun hm => h (this.2 hm), rfl⟩
    · rintro ⟨_, rfl⟩; rfl

theorem distinct_snoc {g : Given} {n : List Char} {v : Option (List Char)} : Distinct (g ++ [(n, v)]) ↔ Distinct g ∧ n ∉ g.map (·.1) := by
  unfold Distinct
  rw [List.map_append, List.nodup_append]
  simp only [List.map_cons, List.map_nil, List.mem_singleton, List.nodup_cons, List.not_mem_nil, not_false_eq_true, List.nodup_nil, and_self, true_and]
  constructor
  · rintro ⟨h1, h2⟩; exact ⟨h1, fun hm => h2 n hm n rfl rfl⟩
  · rintro ⟨h1, h2⟩; refine ⟨h1, fun a ha b hb e => ?_⟩; subst hb; exact h2 (e ▸ ha)

theorem push_distinct {g g' : Given} {n : List Char} {v : Option (List Char)} (hg : Distinct g) : g.push n v = .ok g' ↔ g' = g ++ [(n, v)] ∧ Distinct g' := by
  rw [push_ok_iff]
  constructor
  · rintro ⟨h, rfl⟩; exact ⟨rfl, distinct_snoc.2 ⟨hg, h⟩⟩
  · rintro ⟨rfl, h⟩; exact ⟨(distinct_snoc.1 h).2, rfl⟩

theorem pushValue_distinct {t : List OptDef} {g g' : Given} {d : OptDef} {v : List Char} (hd : d ∈ t) (hg : Distinct g) :
    g.pushValue d v = .ok g' ↔ TakesValue t d v ∧ g' = g ++ [(d.long, some v)] ∧ Distinct g' := by
  unfold Given.pushValue TakesValue
  cases hk : d.kind with
  | flag => simp
  | stop s => simp
  | value accepts =>
    simp only [OptKind.value.injEq, exists_eq_left']
    split
    · rename_i ha
      rw [push_distinct hg]
      exact ⟨fun h => ⟨⟨hd, ha⟩, h⟩, fun h => h.2⟩
    · rename_i ha
      constructor
      · intro h; cases h
      · rintro ⟨⟨_, h⟩, _⟩; exact absurd h ha

theorem distinct_left {a b : Given} (h : Distinct (a ++ b)) : Distinct a := by
  unfold Distinct at *
  rw [List.map_append] at h
  exact (List.nodup_append.1 h).1

/-! ## One word -/

theorem splitEq_none {n : List Char} (h : '=' ∉ n) : splitEq n = (n, none) := by
  have h1 : ∀ c ∈ n, (c != '=') = true := fun c hc => by
    rw [bne_iff_ne]
    intro e
    exact h (e ▸ hc)
  have h2 := List.dropWhile_append_of_pos (l₂ := []) h1
  have h3 := List.takeWhile_append_of_pos (l₂ := []) h1
  rw [List.append_nil] at h2 h3
  unfold splitEq
  rw [h2, h3]
  simp

theorem splitEq_some {n v : List Char} (h : '=' ∉ n) : splitEq (n ++ '=' :: v) = (n, some v) := by
  have h1 : ∀ c ∈ n, (c != '=') = true := fun c hc => by
    rw [bne_iff_ne]
    intro e
    exact h (e ▸ hc)
  unfold splitEq
  rw [List.dropWhile_append_of_pos h1, List.takeWhile_append_of_pos h1]
  simp

theorem splitEq_cases (a : List Char) : (∃ v, (splitEq a).2 = some v ∧ a = (splitEq a).1 ++ '=' :: v) ∨ ((splitEq a).2 = none ∧ a = (splitEq a).1) := by
  unfold splitEq
  have h0 := List.takeWhile_append_dropWhile (p := fun c => c != '=') (l := a)
  cases hd : a.dropWhile (fun c => c != '=') with
  | nil => rw [hd, List.append_nil] at h0; exact Or.inr ⟨rfl, h0.symm⟩
  | cons c v =>
    have hc : c = '=' := by
      have := List.head?_dropWhile_not (fun c => c != '=') a
      rw [hd] at this
      simpa using this
    subst hc
    rw [hd] at h0
    exact Or.inl ⟨v, rfl, h0.symm⟩

/-- `--…`: what it says, and whether a value is still to come. -/
theorem parseLong_ok {t : List OptDef} (ht : TableOk t) {g g' : Given} {a : List Char} {p : Option OptDef} (hg : Distinct g) :
    parseLong t g a = .ok (g', p) ↔
      (∃ d, d ∈ t ∧ d.kind = .flag ∧ a = d.long ∧ p = none ∧ g' = g ++ [(d.long, none)] ∧ Distinct g') ∨
      (∃ d v, TakesValue t d v ∧ a = d.long ++ '=' :: v ∧ p = none ∧ g' = g ++ [(d.long, some v)] ∧ Distinct g') ∨
      (∃ d accepts, d ∈ t ∧ d.kind = .value accepts ∧ a = d.long ∧ p = some d ∧ g' = g) := by
  constructor
  · intro h
    unfold parseLong at h
    cases hb : byLong t (splitEq a).1 with
    | none => rw [hb] at h; cases h
    | some d =>
      rw [hb] at h
      obtain ⟨hd, hl⟩ := byLong_some hb
      simp only at h
      rcases splitEq_cases a with ⟨v, hv, ha⟩ | ⟨hv, ha⟩
      · rw [hv] at h
        rw [← hl] at ha
        cases hk : d.kind with
        | stop s => rw [hk] at h; cases h
        | flag => rw [hk] at h; cases h
        | value acc =>
          rw [hk] at h
          simp only at h
          cases hp : g.pushValue d v with
          | error e => rw [hp] at h; cases h
          | ok g1 =>
            rw [hp] at h
            cases h
            obtain ⟨h1, h2, h3⟩ := (pushValue_distinct hd hg).1 hp
            exact Or.inr (Or.inl ⟨d, v, h1, ha, rfl, h2, h3⟩)
      · rw [hv] at h
        rw [← hl] at ha
        cases hk : d.kind with
        | stop s => rw [hk] at h; cases h
        | value acc =>
          rw [hk] at h
          simp only at h
          cases h
          exact Or.inr (Or.inr ⟨d, acc, hd, hk, ha, rfl, rfl⟩)
        | flag =>
          rw [hk] at h
          simp only at h
          cases hp : g.push d.long none with
          | error e => rw [hp] at h; cases h
          | ok g1 =>
            rw [hp] at h
            cases h
            obtain ⟨h1, h2⟩ := (push_distinct hg).1 hp
            exact Or.inl ⟨d, hd, hk, ha, rfl, h1, h2⟩
  · intro h
    unfold parseLong
    rcases h with ⟨d, hd, hk, rfl, rfl, h1, h2⟩ | ⟨d, v, hv, rfl, rfl, h1, h2⟩ | ⟨d, acc, hd, hk, rfl, rfl, rfl⟩
    · rw [splitEq_none (ht.2.2.2.1 d hd), byLong_mem ht hd]
      simp only [hk]
      rw [(push_distinct hg).2 ⟨h1, h2⟩]
      rfl
    · have hd := hv.1
      obtain ⟨acc, hk, _⟩ := hv.2
      rw [splitEq_some (ht.2.2.2.1 d hd), byLong_mem ht hd]
      simp only [hk]
      rw [(pushValue_distinct hd hg).2 ⟨hv, h1, h2⟩]
      rfl
    · rw [splitEq_none (ht.2.2.2.1 d hd), byLong_mem ht hd]
      simp only [hk]

/-- `-…`: what it says. -/
theorem parseShort_ok {t : List OptDef} (ht : TableOk t) {cs : List Char} : ∀ {g g' : Given} {p : Option OptDef}, Distinct g →
    (parseShort t g cs = .ok (g', p) ↔
      (∃ h, Letters t h cs ∧ p = none ∧ g' = g ++ h ∧ Distinct g') ∨
      (∃ h fs d c v, Letters t h fs ∧ TakesValue t d v ∧ d.short = some c ∧ (cs = fs ++ c :: '=' :: v ∨ (cs = fs ++ c :: v ∧ v ≠ [] ∧ v.head? ≠ some '=')) ∧ p = none ∧
        g' = g ++ (h ++ [(d.long, some v)]) ∧ Distinct g') ∨
      (∃ h fs d c accepts, Letters t h fs ∧ d ∈ t ∧ d.kind = .value accepts ∧ d.short = some c ∧ cs = fs ++ [c] ∧ p = some d ∧ g' = g ++ h ∧ Distinct g')) := by
  induction cs with
  | nil =>
    intro g g' p hg
    constructor
    · intro h
      cases h
      exact Or.inl ⟨[], .nil, rfl, (List.append_nil g).symm, hg⟩
    · rintro (⟨h, hl, rfl, rfl, _⟩ | ⟨h, fs, d, c, v, _, _, _, hcs, _⟩ | ⟨h, fs, d, c, acc, _, _, _, _, hcs, _⟩)
      · cases hl
        rw [List.append_nil]
        rfl
      · rcases hcs with hcs | ⟨hcs, _⟩ <;> cases fs <;> cases hcs
      · cases fs <;> cases hcs
  | cons x xs ih =>
    intro g g' p hg
    constructor
    · intro h
      unfold parseShort at h
      cases hb : byShort t x with
      | none => rw [hb] at h; cases h
      | some d =>
        rw [hb] at h
        obtain ⟨hd, hs⟩ := byShort_some hb
        simp only at h
        cases hk : d.kind with
        | stop s => rw [hk] at h; cases h
        | flag =>
          rw [hk] at h
          simp only at h
          cases hp : g.push d.long none with
          | error e => rw [hp] at h; cases h
          | ok g1 =>
            rw [hp] at h
            simp only at h
            obtain ⟨rfl, hg1⟩ := (push_distinct hg).1 hp
            rcases (ih hg1).1 h with ⟨k, hl, h1, h2, h3⟩ | ⟨k, fs, d', c, v, hl, hv, hc, hcs, h1, h2, h3⟩ | ⟨k, fs, d', c, acc, hl, hd', hk', hc, hcs, h1, h2, h3⟩
            · exact Or.inl ⟨_, .cons hd hk hs hl, h1, by rw [h2]; simp, h3⟩
            · refine Or.inr (Or.inl ⟨_, x :: fs, d', c, v, .cons hd hk hs hl, hv, hc, ?_, h1, by rw [h2]; simp, h3⟩)
              rcases hcs with hcs | ⟨hcs, hne⟩
              · exact Or.inl (by rw [hcs]; rfl)
              · exact Or.inr ⟨by rw [hcs]; rfl, hne⟩
            · exact Or.inr (Or.inr ⟨_, x :: fs, d', c, acc, .cons hd hk hs hl, hd', hk', hc, by rw [hcs]; rfl, h1, by rw [h2]; simp, h3⟩)
        | value acc =>
          rw [hk] at h
          simp only at h
          split at h
          · cases h
            exact Or.inr (Or.inr ⟨[], [], d, x, acc, .nil, hd, hk, hs, rfl, rfl, (List.append_nil g).symm, hg⟩)
          · rename_i v
            cases hp : g.pushValue d v with
            | error e => rw [hp] at h; cases h
            | ok g1 =>
              rw [hp] at h
              cases h
              obtain ⟨h1, h2, h3⟩ := (pushValue_distinct hd hg).1 hp
              exact Or.inr (Or.inl ⟨[], [], d, x, v, .nil, h1, hs, Or.inl rfl, rfl, h2, h3⟩)
          · rename_i v hne1 hne2
            cases hp : g.pushValue d xs with
            | error e => rw [hp] at h; cases h
            | ok g1 =>
              rw [hp] at h
              cases h
              obtain ⟨h1, h2, h3⟩ := (pushValue_distinct hd hg).1 hp
              refine Or.inr (Or.inl ⟨[], [], d, x, xs, .nil, h1, hs, Or.inr ⟨rfl, fun e => hne1 e, ?_⟩, rfl, h2, h3⟩)
              intro e
              cases xs with
              | nil => cases e
              | cons y ys =>
                cases e
                exact hne2 ys rfl
    · have flagStep : ∀ {d : OptDef} {k : Given}, d ∈ t → d.kind = .flag → d.short = some x → Distinct (g ++ ((d.long, none) :: k)) →
          parseShort t g (x :: xs) = parseShort t (g ++ [(d.long, none)]) xs ∧ Distinct (g ++ [(d.long, none)]) := by
        intro d k hd hk hs hdis
        have h1 : Distinct (g ++ [(d.long, none)]) := by
          rw [show g ++ ((d.long, none) :: k) = (g ++ [(d.long, none)]) ++ k by simp] at hdis
          exact distinct_left hdis
        refine ⟨?_, h1⟩
        rw [parseShort, byShort_mem ht hd hs]
        simp only [hk]
        rw [(push_distinct hg).2 ⟨rfl, h1⟩]
      rintro (⟨k, hl, rfl, rfl, h3⟩ | ⟨k, fs, d', c, v, hl, hv, hc, hcs, rfl, rfl, h3⟩ | ⟨k, fs, d', c, acc, hl, hd', hk', hc, hcs, rfl, rfl, h3⟩)
      · cases hl with
        | cons hd hk hs hl =>
          obtain ⟨h4, h5⟩ := flagStep hd hk hs h3
          rw [h4]
          exact (ih h5).2 (Or.inl ⟨_, hl, rfl, by simp, h3⟩)
      · cases hl with
        | nil =>
          obtain ⟨acc, hk, _⟩ := hv.2
          have hp := (pushValue_distinct hv.1 hg).2 ⟨hv, rfl, h3⟩
          rcases hcs with hcs | ⟨hcs, hne, hne2⟩
          · rw [List.nil_append] at hcs
            cases hcs
            rw [parseShort, byShort_mem ht hv.1 hc]
            simp only [hk]
            rw [hp]
            rfl
          · rw [List.nil_append] at hcs
            cases hcs
            rw [parseShort, byShort_mem ht hv.1 hc]
            simp only [hk]
            split
            · exact absurd rfl hne
            · exact absurd rfl hne2
            · rw [hp]; rfl
        | cons hd hk hs hl =>
          rename_i d2 c2 g2 cs2
          have hc2 : c2 = x := by rcases hcs with hcs | ⟨hcs, _⟩ <;> (cases hcs; rfl)
          subst hc2
          obtain ⟨h4, h5⟩ := flagStep (k := g2 ++ [(d'.long, some v)]) hd hk hs (by simpa using h3)
          rw [h4]
          refine (ih h5).2 (Or.inr (Or.inl ⟨_, cs2, d', c, v, hl, hv, hc, ?_, rfl, by simp, h3⟩))
          rcases hcs with hcs | ⟨hcs, hne⟩
          · cases hcs; exact Or.inl rfl
          · cases hcs; exact Or.inr ⟨rfl, hne⟩
      · cases hl with
        | nil =>
          cases hcs
          rw [parseShort, byShort_mem ht hd' hc]
          simp only [hk']
          rw [List.append_nil]
        | cons hd hk hs hl =>
          cases hcs
          obtain ⟨h4, h5⟩ := flagStep hd hk hs h3
          rw [h4]
          exact (ih h5).2 (Or.inr (Or.inr ⟨_, _, d', c, acc, hl, hd', hk', hc, rfl, rfl, by simp, h3⟩))

/-! ## All words -/

theorem plain_cases {v : List Char} (h : PlainWord v) : v = [] ∨ v = ['-'] ∨ ∃ c cs, v = c :: cs ∧ c ≠ '-' := by
  rcases h with rfl | h
  · exact Or.inr (Or.inl rfl)
  · cases v with
    | nil => exact Or.inl rfl
    | cons c cs => exact Or.inr (Or.inr ⟨c, cs, rfl, fun e => h (by rw [e]; rfl)⟩)

/-- Every word is the end of the options, begins with two hyphens, with one, or is plain. -/
theorem word_cases (a : List Char) : a = ['-', '-'] ∨ (∃ n, n ≠ [] ∧ a = '-' :: '-' :: n) ∨ (∃ c cs, c ≠ '-' ∧ a = '-' :: c :: cs) ∨ PlainWord a := by
  cases a with
  | nil => exact Or.inr (Or.inr (Or.inr (Or.inr (by simp))))
  | cons x xs =>
    by_cases hx : x = '-'
    · subst hx
      cases xs with
      | nil => exact Or.inr (Or.inr (Or.inr (Or.inl rfl)))
      | cons y ys =>
        by_cases hy : y = '-'
        · subst hy
          cases ys with
          | nil => exact Or.inl rfl
          | cons z zs => exact Or.inr (Or.inl ⟨z :: zs, by simp, rfl⟩)
        · exact Or.inr (Or.inr (Or.inl ⟨y, ys, hy, rfl⟩))
    · exact Or.inr (Or.inr (Or.inr (Or.inr (by simpa using hx))))

theorem parseArgs_escape (t : List OptDef) (g : Given) (p : Option OptDef) (rest : List (List Char)) :
    parseArgs t g p (['-', '-'] :: rest) = if p.isNone ∧ rest = [] then .ok g else .error .usage := by
  rw [parseArgs]

theorem parseArgs_long (t : List OptDef) (g : Given) {n : List Char} (hn : n ≠ []) (rest : List (List Char)) :
    parseArgs t g none (('-' :: '-' :: n) :: rest) = match parseLong t g n with
      | .error e => .error e
      | .ok (g', p') => parseArgs t g' p' rest := by
  rw [parseArgs]
  · rfl
  · intro e; cases e; exact hn rfl

theorem parseArgs_long_pending (t : List OptDef) (g : Given) (d : OptDef) {n : List Char} (hn : n ≠ []) (rest : List (List Char)) :
    parseArgs t g (some d) (('-' :: '-' :: n) :: rest) = .error .usage := by
  rw [parseArgs]
  · rfl
  · intro e; cases e; exact hn rfl

theorem parseArgs_short (t : List OptDef) (g : Given) {c : Char} (hc : c ≠ '-') (cs : List Char) (rest : List (List Char)) :
    parseArgs t g none (('-' :: c :: cs) :: rest) = match parseShort t g (c :: cs) with
      | .error e => .error e
      | .ok (g', p') => parseArgs t g' p' rest := by
  rw [parseArgs]
  · rfl
  · intro e _; exact hc e
  · exact hc

theorem parseArgs_short_pending (t : List OptDef) (g : Given) (d : OptDef) {c : Char} (hc : c ≠ '-') (cs : List Char) (rest : List (List Char)) :
    parseArgs t g (some d) (('-' :: c :: cs) :: rest) = .error .usage := by
  rw [parseArgs]
  · rfl
  · intro e _; exact hc e
  · exact hc

theorem parseArgs_plain (t : List OptDef) (g : Given) (p : Option OptDef) {v : List Char} (hv : PlainWord v) (rest : List (List Char)) :
    parseArgs t g p (v :: rest) = match p with
      | none => .error .usage
      | some d =>
        match g.pushValue d v with
        | .error e => .error e
        | .ok g' => parseArgs t g' none rest := by
  cases p <;> rw [parseArgs.eq_def] <;> simp only <;> split <;> first | rfl | (exfalso; rcases hv with h | h; (· cases h); (· exact h rfl)) | skip

/-- With an option pending, its value must be the next word. -/
theorem parseArgs_pending {t : List OptDef} {g g' : Given} {d : OptDef} {args : List (List Char)} (hd : d ∈ t) (hg : Distinct g) :
    parseArgs t g (some d) args = .ok g' ↔
      ∃ v rest, args = v :: rest ∧ PlainWord v ∧ TakesValue t d v ∧ Distinct (g ++ [(d.long, some v)]) ∧ parseArgs t (g ++ [(d.long, some v)]) none rest = .ok g' := by
  cases args with
  | nil =>
    constructor
    · intro h; cases h
    · rintro ⟨v, rest, h, _⟩; cases h
  | cons a rest =>
    rcases word_cases a with rfl | ⟨n, hn, rfl⟩ | ⟨c, cs, hc, rfl⟩ | hp
    · rw [parseArgs_escape]
      constructor
      · intro h; simp at h
      · rintro ⟨v, r, h, hp, _⟩; cases h; rcases hp with hp | hp
        · cases hp
        · exact absurd rfl hp
    · rw [parseArgs_long_pending t g d hn]
      constructor
      · intro h; cases h
      · rintro ⟨v, r, h, hp, _⟩; cases h; rcases hp with hp | hp
        · cases hp
        · exact absurd rfl hp
    · rw [parseArgs_short_pending t g d hc]
      constructor
      · intro h; cases h
      · rintro ⟨v, r, h, hp, _⟩; cases h; rcases hp with hp | hp
        · cases hp
        · exact absurd rfl hp
    · rw [parseArgs_plain t g (some d) hp]
      constructor
      · intro h
        simp only at h
        cases hpv : g.pushValue d a with
        | error e => rw [hpv] at h; cases h
        | ok g1 =>
          rw [hpv] at h
          obtain ⟨h1, h2, h3⟩ := (pushValue_distinct hd hg).1 hpv
          subst h2
          exact ⟨a, rest, rfl, hp, h1, h3, h⟩
      · rintro ⟨v, r, h, _, h1, h2, h3⟩
        cases h
        simp only
        rw [(pushValue_distinct hd hg).2 ⟨h1, rfl, h2⟩]
        exact h3

/-- The end of a command line. -/
def Ending (args core : List (List Char)) : Prop := args = core ∨ args = core ++ ["--".toList]

theorem letters_head {t : List OptDef} (ht : TableOk t) {g : Given} {cs : List Char} (h : Letters t g cs) {c : Char} (hc : cs.head? = some c) : c ≠ '-' := by
  cases h with
  | nil => cases hc
  | cons hd _ hs _ => cases hc; intro e; subst e; exact ht.2.2.2.2 _ hd hs

theorem parse_sound {t : List OptDef} (ht : TableOk t) (n : Nat) : ∀ {args : List (List Char)} {g g' : Given}, args.length ≤ n → Distinct g → parseArgs t g none args = .ok g' →
    Distinct g' ∧ ∃ h core, g' = g ++ h ∧ Spelled t h core ∧ Ending args core := by
  induction n with
  | zero =>
    intro args g g' hn hg h
    cases args with
    | cons a r => cases hn
    | nil => cases h; exact ⟨hg, [], [], (List.append_nil g).symm, .nil, Or.inl rfl⟩
  | succ n ih =>
    intro args g g' hn hg h
    -- what one or two words add
    have glue : ∀ {k : Given} {ws rest : List (List Char)}, Words t k ws → args = ws ++ rest → rest.length ≤ n → Distinct (g ++ k) → parseArgs t (g ++ k) none rest = .ok g' →
        Distinct g' ∧ ∃ h core, g' = g ++ h ∧ Spelled t h core ∧ Ending args core := by
      intro k ws rest hw ha hr hdis hrest
      obtain ⟨h1, h', core, h2, h3, h4⟩ := ih hr hdis hrest
      refine ⟨h1, k ++ h', ws ++ core, by rw [h2]; simp, .cons hw h3, ?_⟩
      rcases h4 with h4 | h4
      · exact Or.inl (by rw [ha, h4])
      · exact Or.inr (by rw [ha, h4]; simp)
    cases args with
    | nil => cases h; exact ⟨hg, [], [], (List.append_nil g).symm, .nil, Or.inl rfl⟩
    | cons a rest =>
      have hr : rest.length ≤ n := Nat.le_of_succ_le_succ hn
      rcases word_cases a with rfl | ⟨m, hm, rfl⟩ | ⟨c, cs, hc, rfl⟩ | hp
      · rw [parseArgs_escape] at h
        split at h
        · rename_i hh
          cases h
          exact ⟨hg, [], [], (List.append_nil g).symm, .nil, Or.inr (by rw [hh.2]; rfl)⟩
        · cases h
      · rw [parseArgs_long t g hm] at h
        cases hl : parseLong t g m with
        | error e => rw [hl] at h; cases h
        | ok r =>
          obtain ⟨g1, p⟩ := r
          rw [hl] at h
          simp only at h
          rcases (parseLong_ok ht hg).1 hl with ⟨d, hd, hk, rfl, rfl, rfl, hdis⟩ | ⟨d, v, hv, rfl, rfl, rfl, hdis⟩ | ⟨d, acc, hd, hk, rfl, rfl, rfl⟩
          · exact glue (.flag hd hk) rfl hr hdis h
          · exact glue (.equals hv) rfl hr hdis h
          · obtain ⟨v, rest', rfl, hpl, hv, hdis, h'⟩ := (parseArgs_pending hd hg).1 h
            exact glue (.next hv hpl) rfl (Nat.le_trans (Nat.le_succ _) hr) hdis h'
      · rw [parseArgs_short t g hc] at h
        cases hl : parseShort t g (c :: cs) with
        | error e => rw [hl] at h; cases h
        | ok r =>
          obtain ⟨g1, p⟩ := r
          rw [hl] at h
          simp only at h
          rcases (parseShort_ok ht hg).1 hl with ⟨k, hk, rfl, rfl, hdis⟩ | ⟨k, fs, d, x, v, hk, hv, hs, hcs, rfl, rfl, hdis⟩ | ⟨k, fs, d, x, acc, hk, hd, hkind, hs, hcs, rfl, rfl, hdis⟩
          · exact glue (.letters hk (by simp)) rfl hr hdis h
          · rcases hcs with hcs | ⟨hcs, hne, hne2⟩
            · rw [hcs]
              have := glue (.letterEquals hk hv hs) (rest := rest) (by rw [hcs]; rfl) hr hdis h
              rwa [hcs] at this
            · have := glue (.attached hk hv hs hne hne2) (rest := rest) (by rw [hcs]; rfl) hr hdis h
              exact this
          · obtain ⟨v, rest', rfl, hpl, hv, hdis', h'⟩ := (parseArgs_pending hd hdis).1 h
            rw [List.append_assoc] at hdis' h'
            exact glue (.letterNext hk hv hs hpl) (by rw [hcs]; rfl) (Nat.le_trans (Nat.le_succ _) hr) hdis' h'
      · rw [parseArgs_plain t g none hp] at h
        cases h

theorem parse_words {t : List OptDef} (ht : TableOk t) {k : Given} {ws : List (List Char)} (hw : Words t k ws) {g : Given} (hg : Distinct g) (hdis : Distinct (g ++ k)) (rest : List (List Char)) :
    parseArgs t g none (ws ++ rest) = parseArgs t (g ++ k) none rest := by
  have short : ∀ {x : List Char} {g1 : Given} {p : Option OptDef}, (∃ c cs, x = c :: cs ∧ c ≠ '-') → parseShort t g x = .ok (g1, p) →
      ∀ r, parseArgs t g none (('-' :: x) :: r) = parseArgs t g1 p r := by
    rintro x g1 p ⟨c, cs, rfl, hc⟩ h r
    rw [parseArgs_short t g hc, h]
  have headOf : ∀ {h : Given} {fs : List Char} {d : OptDef} {c : Char} (v : List Char), Letters t h fs → d ∈ t → d.short = some c → ∃ y ys, fs ++ c :: v = y :: ys ∧ y ≠ '-' := by
    intro h fs d c v hl hd hs
    cases hl with
    | nil => exact ⟨c, v, rfl, fun e => by subst e; exact ht.2.2.2.2 d hd hs⟩
    | cons hd' _ hs' _ => exact ⟨_, _, rfl, fun e => by subst e; exact ht.2.2.2.2 _ hd' hs'⟩
  have pend : ∀ {g1 : Given} {d : OptDef} {v : List Char}, TakesValue t d v → PlainWord v → Distinct (g1 ++ [(d.long, some v)]) → ∀ r,
      parseArgs t g1 (some d) (v :: r) = parseArgs t (g1 ++ [(d.long, some v)]) none r := by
    intro g1 d v hv hp hd r
    rw [parseArgs_plain t g1 (some d) hp]
    simp only
    rw [(pushValue_distinct hv.1 (distinct_left hd)).2 ⟨hv, rfl, hd⟩]
  cases hw with
  | flag hd hk =>
    show parseArgs t g none (_ :: rest) = _
    rw [parseArgs_long t g (ht.2.2.1 _ hd), (parseLong_ok ht hg).2 (Or.inl ⟨_, hd, hk, rfl, rfl, rfl, hdis⟩)]
  | equals hv =>
    show parseArgs t g none (_ :: rest) = _
    rw [parseArgs_long t g (by simp), (parseLong_ok ht hg).2 (Or.inr (Or.inl ⟨_, _, hv, rfl, rfl, rfl, hdis⟩))]
  | next hv hp =>
    obtain ⟨acc, hk, _⟩ := hv.2
    show parseArgs t g none (_ :: _ :: rest) = _
    rw [parseArgs_long t g (ht.2.2.1 _ hv.1), (parseLong_ok ht hg).2 (Or.inr (Or.inr ⟨_, acc, hv.1, hk, rfl, rfl, rfl⟩))]
    exact pend hv hp hdis rest
  | @letters k cs hl hne =>
    cases cs with
    | nil => exact absurd rfl hne
    | cons c cs =>
      exact short ⟨c, cs, rfl, letters_head ht hl rfl⟩ ((parseShort_ok ht hg).2 (Or.inl ⟨_, hl, rfl, rfl, hdis⟩)) rest
  | @attached k cs d c v hl hv hs hne hne2 =>
    exact short (headOf v hl hv.1 hs) ((parseShort_ok ht hg).2 (Or.inr (Or.inl ⟨_, _, d, c, v, hl, hv, hs, Or.inr ⟨rfl, hne, hne2⟩, rfl, rfl, hdis⟩))) rest
  | @letterEquals k cs d c v hl hv hs =>
    exact short (headOf ('=' :: v) hl hv.1 hs) ((parseShort_ok ht hg).2 (Or.inr (Or.inl ⟨_, _, d, c, v, hl, hv, hs, Or.inl rfl, rfl, rfl, hdis⟩))) rest
  | @letterNext k cs d c v hl hv hs hp =>
    obtain ⟨acc, hk, _⟩ := hv.2
    rw [← List.append_assoc] at hdis
    rw [show [('-' :: (cs ++ [c])), v] ++ rest = ('-' :: (cs ++ [c])) :: v :: rest from rfl,
      short (headOf [] hl hv.1 hs) ((parseShort_ok ht hg).2 (Or.inr (Or.inr ⟨_, _, d, c, acc, hl, hv.1, hk, hs, rfl, rfl, rfl, distinct_left hdis⟩))) (v :: rest), pend hv hp hdis rest,
      List.append_assoc]

theorem parse_spelled {t : List OptDef} (ht : TableOk t) {k : Given} {core : List (List Char)} (hs : Spelled t k core) : ∀ {g : Given}, Distinct (g ++ k) → ∀ rest,
    parseArgs t g none (core ++ rest) = parseArgs t (g ++ k) none rest := by
  induction hs with
  | nil => intro g _ rest; rw [List.append_nil]; rfl
  | cons hw _ ih =>
    intro g hdis rest
    rw [← List.append_assoc] at hdis
    have h1 := distinct_left hdis
    rw [List.append_assoc, parse_words ht hw (distinct_left h1) h1, ih hdis, List.append_assoc]

/-- **C96**, any table of options: a command line is understood exactly if it spells options of the table, each at most once; what is understood is what is spelled. -/
theorem C96_understood_iff {t : List OptDef} (ht : TableOk t) (args : List (List Char)) (g : Given) : parseArgs t [] none args = .ok g ↔ Says t args g := by
  constructor
  · intro h
    obtain ⟨h1, k, core, rfl, h2, h3⟩ := parse_sound ht args.length (Nat.le_refl _) (g := []) List.nodup_nil h
    exact ⟨h1, core, h2, h3⟩
  · rintro ⟨h1, core, h2, h3⟩
    have := fun rest => parse_spelled ht h2 (g := []) h1 rest
    rcases h3 with rfl | rfl
    · have := this []
      rw [List.append_nil] at this
      rw [this]
      rfl
    · rw [this]
      rfl

/-- A command line says one thing only. -/
theorem says_unique {t : List OptDef} (ht : TableOk t) {args : List (List Char)} {g g' : Given} (h : Says t args g) (h' : Says t args g') : g = g' := by
  have h1 := (C96_understood_iff ht args g).2 h
  rw [(C96_understood_iff ht args g').2 h'] at h1
  cases h1
  rfl

theorem sendOpts_ok : TableOk sendOpts := by decide
theorem updateOpts_ok : TableOk updateOpts := by decide
theorem noOpts_ok : TableOk noOpts := by decide
theorem serverOpts_ok : TableOk serverOpts := by decide
theorem commanderOpts_ok : TableOk commanderOpts := by decide

/-! ## What the options mean -/

/-- Every option spelled is one of the table, a flag without value or an option with one it accepts. -/
def FromTable (t : List OptDef) (g : Given) : Prop :=
  ∀ n v, (n, v) ∈ g → ∃ d ∈ t, d.long = n ∧ ((d.kind = .flag ∧ v = none) ∨ ∃ x, TakesValue t d x ∧ v = some x)

theorem fromTable_append {t : List OptDef} {a b : Given} (ha : FromTable t a) (hb : FromTable t b) : FromTable t (a ++ b) := by
  intro n v h
  rcases List.mem_append.1 h with h | h
  · exact ha n v h
  · exact hb n v h

theorem fromTable_flag {t : List OptDef} {d : OptDef} (hd : d ∈ t) (hk : d.kind = .flag) : FromTable t [(d.long, none)] := by
  intro n v h
  cases List.mem_singleton.1 h
  exact ⟨d, hd, rfl, Or.inl ⟨hk, rfl⟩⟩

theorem fromTable_value {t : List OptDef} {d : OptDef} {x : List Char} (hv : TakesValue t d x) : FromTable t [(d.long, some x)] := by
  intro n v h
  cases List.mem_singleton.1 h
  exact ⟨d, hv.1, rfl, Or.inr ⟨x, hv, rfl⟩⟩

theorem fromTable_letters {t : List OptDef} {g : Given} {cs : List Char} (h : Letters t g cs) : FromTable t g := by
  induction h with
  | nil => intro n v h; cases h
  | cons hd hk _ _ ih => exact fromTable_append (fromTable_flag hd hk) ih

theorem fromTable_spelled {t : List OptDef} {g : Given} {core : List (List Char)} (h : Spelled t g core) : FromTable t g := by
  induction h with
  | nil => intro n v h; cases h
  | cons hw _ ih =>
    refine fromTable_append ?_ ih
    cases hw with
    | flag hd hk => exact fromTable_flag hd hk
    | equals hv => exact fromTable_value hv
    | next hv _ => exact fromTable_value hv
    | letters hl _ => exact fromTable_letters hl
    | attached hl hv _ _ _ => exact fromTable_append (fromTable_letters hl) (fromTable_value hv)
    | letterEquals hl hv _ => exact fromTable_append (fromTable_letters hl) (fromTable_value hv)
    | letterNext hl hv _ _ => exact fromTable_append (fromTable_letters hl) (fromTable_value hv)

theorem Spec.Says.fromTable {t : List OptDef} {args : List (List Char)} {g : Given} (h : Says t args g) : FromTable t g := by
  obtain ⟨_, core, hs, _⟩ := h
  exact fromTable_spelled hs

/-- Given in a table: the option with this name. -/
theorem fromTable_def {t : List OptDef} (ht : TableOk t) {g : Given} (hg : FromTable t g) {d : OptDef} (hd : d ∈ t) {v : Option (List Char)} (h : (d.long, v) ∈ g) :
    (d.kind = .flag ∧ v = none) ∨ ∃ x, TakesValue t d x ∧ v = some x := by
  obtain ⟨d', hd', hl, hv⟩ := hg _ _ h
  have h1 := byLong_mem ht hd
  have h2 := byLong_mem ht hd'
  rw [hl, h1] at h2
  cases h2
  exact hv

theorem lookup_distinct {g : Given} (hg : Distinct g) {n : List Char} {v : Option (List Char)} : g.lookup n = some v ↔ (n, v) ∈ g := by
  induction g with
  | nil => simp
  | cons x xs ih =>
    obtain ⟨m, u⟩ := x
    unfold Distinct at hg
    rw [List.map_cons, List.nodup_cons] at hg
    rw [List.lookup_cons]
    by_cases h : n = m
    · subst h
      simp only [beq_self_eq_true]
      constructor
      · intro h; cases h; exact List.mem_cons_self
      · intro h
        rcases List.mem_cons.1 h with h | h
        · cases h; rfl
        · exact absurd (List.mem_map_of_mem h) hg.1
    · have : (n == m) = false := by simpa using h
      simp only [this]
      rw [ih hg.2]
      constructor
      · exact fun h => List.mem_cons_of_mem _ h
      · intro h'
        rcases List.mem_cons.1 h' with h' | h'
        · cases h'; exact absurd rfl h
        · exact h'

theorem value_iff {g : Given} (hg : Distinct g) {n v : List Char} : g.value n = some v ↔ (n, some v) ∈ g := by
  unfold Given.value
  rw [← lookup_distinct hg]
  cases g.lookup n with
  | none => simp
  | some x => simp

theorem value_none {g : Given} (hg : Distinct g) {n : List Char} : g.value n = none ↔ ∀ v, (n, some v) ∉ g := by
  constructor
  · intro h v hm
    rw [(value_iff hg).2 hm] at h
    cases h
  · intro h
    cases hv : g.value n with
    | none => rfl
    | some v => exact absurd ((value_iff hg).1 hv) (h v)

theorem has_iff {g : Given} (hg : Distinct g) {n : List Char} : g.has n = true ↔ ∃ v, (n, v) ∈ g := by
  unfold Given.has
  rw [Option.isSome_iff_exists]
  exact ⟨fun ⟨v, h⟩ => ⟨v, (lookup_distinct hg).1 h⟩, fun ⟨v, h⟩ => ⟨v, (lookup_distinct hg).2 h⟩⟩

/-- A flag of the table is given, if it is, without a value. -/
theorem has_flag {t : List OptDef} (ht : TableOk t) {g : Given} (hd : Distinct g) (hg : FromTable t g) {d : OptDef} (hm : d ∈ t) (hk : d.kind = .flag) : g.has d.long = true ↔ (d.long, none) ∈ g := by
  rw [has_iff hd]
  constructor
  · rintro ⟨v, h⟩
    rcases fromTable_def ht hg hm h with ⟨_, rfl⟩ | ⟨x, ⟨_, acc, hk', _⟩, _⟩
    · exact h
    · rw [hk] at hk'; cases hk'
  · exact fun h => ⟨none, h⟩

/-- An option of the table that takes a value is given with one. -/
theorem lacks_value {t : List OptDef} (ht : TableOk t) {g : Given} (hd : Distinct g) (hg : FromTable t g) {d : OptDef} (hm : d ∈ t) {acc : List Char → Bool} (hk : d.kind = .value acc) :
    g.value d.long = none ↔ ∀ v, (d.long, v) ∉ g := by
  rw [value_none hd]
  constructor
  · intro h v hv
    rcases fromTable_def ht hg hm hv with ⟨hk', _⟩ | ⟨x, _, rfl⟩
    · rw [hk] at hk'; cases hk'
    · exact h x hv
  · exact fun h v => h _

theorem toDigit10 (c : Char) : toDigit 10 c = if 48 ≤ c.toNat ∧ c.toNat ≤ 57 then some (c.toNat - 48) else none := by
  unfold toDigit
  simp only
  generalize c.toNat = n
  by_cases h : 48 ≤ n ∧ n ≤ 57
  · rw [if_pos h, if_pos h]
    simp only
    rw [if_pos (by omega)]
  · rw [if_neg h, if_neg h]
    split
    · rename_i v hv
      split
      · exfalso
        split at hv
        · cases hv; omega
        · split at hv
          · cases hv; omega
          · cases hv
      · rfl
    · rfl

theorem digits_decimal {ds : List Char} (h : ∀ c ∈ ds, 48 ≤ c.toNat ∧ c.toNat ≤ 57) : ofDigits 10 ds = decimal ds := by
  unfold ofDigits decimal
  suffices hs : ∀ a : Nat, ds.foldl (fun acc c => acc * 10 + (toDigit 10 c).getD 0) a = ds.foldl (fun acc c => 10 * acc + (c.toNat - '0'.toNat)) a from hs 0
  intro a
  induction ds generalizing a with
  | nil => rfl
  | cons c cs ih =>
    rw [List.foldl_cons, List.foldl_cons, toDigit10, if_pos (h c List.mem_cons_self)]
    show cs.foldl _ (a * 10 + (c.toNat - 48)) = cs.foldl _ (10 * a + (c.toNat - 48))
    rw [Nat.mul_comm a 10]
    exact ih (fun x hx => h x (List.mem_cons_of_mem _ hx)) _

theorem parseU64_iff {v : List Char} {n : Nat} : parseU64 v = some n ↔ Milliseconds v n := by
  have hall : ∀ ds : List Char, (ds.all (fun c => (toDigit 10 c).isSome)) = true ↔ ∀ c ∈ ds, 48 ≤ c.toNat ∧ c.toNat ≤ 57 := by
    intro ds
    rw [List.all_eq_true]
    constructor
    · intro h c hc
      have := h c hc
      rw [toDigit10] at this
      split at this
      · assumption
      · cases this
    · intro h c hc
      rw [toDigit10, if_pos (h c hc)]
      rfl
  have main : ∀ ds : List Char, (if ds ≠ [] ∧ ds.all (fun c => (toDigit 10 c).isSome) ∧ ofDigits 10 ds < 2 ^ 64 then some (ofDigits 10 ds) else none) = some n ↔
      ds ≠ [] ∧ (∀ c ∈ ds, 48 ≤ c.toNat ∧ c.toNat ≤ 57) ∧ n = decimal ds ∧ n < 2 ^ 64 := by
    intro ds
    constructor
    · intro h
      split at h
      · rename_i hc
        obtain ⟨h1, h2, h3⟩ := hc
        have h2' := (hall ds).1 h2
        rw [digits_decimal h2'] at h h3
        cases h
        exact ⟨h1, h2', rfl, h3⟩
      · cases h
    · rintro ⟨h1, h2, rfl, h3⟩
      rw [digits_decimal h2, if_pos ⟨h1, (hall ds).2 h2, h3⟩]
  unfold parseU64
  simp only
  rw [main]
  constructor
  · rintro ⟨h1, h2⟩
    refine ⟨stripPlus v, ?_, h1, h2⟩
    cases v with
    | nil => exact Or.inl rfl
    | cons c t =>
      rw [stripPlus.eq_2]
      by_cases hc : c = '+'
      · rw [if_pos hc, hc]; exact Or.inr rfl
      · rw [if_neg hc]; exact Or.inl rfl
  · rintro ⟨ds, hv, h1, h2⟩
    have : stripPlus v = ds := by
      rcases hv with rfl | rfl
      · cases v with
        | nil => rfl
        | cons c t =>
          have hc := h2.1 c List.mem_cons_self
          rw [stripPlus.eq_2, if_neg (by rintro rfl; exact absurd hc (by decide))]
      · rw [stripPlus.eq_2, if_pos rfl]
    rw [this]
    exact ⟨h1, h2⟩

/-- `send`: the fields are what was given, or the defaults. -/
theorem sendArgs_iff {args : List (List Char)} {g : Given} (h : Says sendOpts args g) (a : SendArgs) : sendArgs g = .ok a ↔ SendMeans g a := by
  have hd : Distinct g := h.1
  have ht := h.fromTable
  have hcmd := lacks_value sendOpts_ok hd ht (d := ⟨"command".toList, some 'c', .value anyText⟩) (by simp [sendOpts]) rfl
  have hdel := lacks_value sendOpts_ok hd ht (d := ⟨"send-delay-ms".toList, some 'd', .value (fun v => (parseU64 v).isSome)⟩) (by simp [sendOpts]) rfl
  have hper := has_flag sendOpts_ok hd ht (d := ⟨"permissive".toList, some 'e', .flag⟩) (by simp [sendOpts]) rfl
  have hip4 := has_flag sendOpts_ok hd ht (d := ⟨"ipv4".toList, some '4', .flag⟩) (by simp [sendOpts]) rfl
  have hip6 := has_flag sendOpts_ok hd ht (d := ⟨"ipv6".toList, some '6', .flag⟩) (by simp [sendOpts]) rfl
  have hnum : ∀ v, ("send-delay-ms".toList, some v) ∈ g → ∃ n, parseU64 v = some n := by
    intro v hv
    rcases fromTable_def sendOpts_ok ht (d := ⟨"send-delay-ms".toList, some 'd', .value (fun v => (parseU64 v).isSome)⟩) (by simp [sendOpts]) hv with ⟨hk, _⟩ | ⟨x, ⟨_, acc, hk, hx⟩, he⟩
    · cases hk
    · cases he
      cases hk
      exact Option.isSome_iff_exists.1 hx
  simp only at hcmd hdel hper hip4 hip6
  constructor
  · intro hs
    unfold sendArgs at hs
    cases ha : g.value "address".toList with
    | none => rw [ha] at hs; cases hs
    | some address =>
      cases hk : g.value "key-file".toList with
      | none => rw [ha, hk] at hs; cases hs
      | some key =>
        rw [ha, hk] at hs
        simp only at hs
        cases hs
        refine ⟨(value_iff hd).1 ha, (value_iff hd).1 hk, ?_, hper, fun t => value_iff hd, hip4, hip6, ?_⟩
        · cases hc : g.value "command".toList with
          | none => exact Or.inr ⟨hcmd.1 hc, rfl⟩
          | some c => exact Or.inl ((value_iff hd).1 hc)
        · cases hc : g.value "send-delay-ms".toList with
          | none => exact Or.inr ⟨hdel.1 hc, rfl⟩
          | some v =>
            have hm := (value_iff hd).1 hc
            obtain ⟨n, hn⟩ := hnum v hm
            refine Or.inl ⟨v, hm, parseU64_iff.1 ?_⟩
            show parseU64 v = some (((some v).bind parseU64).getD 50)
            rw [Option.bind_some, hn]
            rfl
  · intro hm
    unfold sendArgs
    rw [(value_iff hd).2 hm.address, (value_iff hd).2 hm.keyFile]
    obtain ⟨⟨address, command, permissive, ip, ipv4, ipv6, delayMs⟩, keyFile⟩ := a
    simp only
    have e1 : (g.value "command".toList).getD "default".toList = command := by
      rcases hm.command with hc | ⟨hc, he⟩
      · rw [(value_iff hd).2 hc]; rfl
      · rw [hcmd.2 hc]; exact he.symm
    have e2 : g.has "permissive".toList = permissive := Bool.eq_iff_iff.2 (hper.trans hm.permissive.symm)
    have e3 : g.value "ip".toList = ip := by
      cases hi : g.value "ip".toList with
      | none =>
        cases ip with
        | none => rfl
        | some t => exact absurd ((hm.ip t).1 rfl) (by rw [value_none hd] at hi; exact hi t)
      | some t => exact ((hm.ip t).2 ((value_iff hd).1 hi)).symm
    have e4 : g.has "ipv4".toList = ipv4 := Bool.eq_iff_iff.2 (hip4.trans hm.ipv4.symm)
    have e5 : g.has "ipv6".toList = ipv6 := Bool.eq_iff_iff.2 (hip6.trans hm.ipv6.symm)
    have e6 : ((g.value "send-delay-ms".toList).bind parseU64).getD 50 = delayMs := by
      rcases hm.delay with ⟨v, hv, hn⟩ | ⟨hl, he⟩
      · rw [(value_iff hd).2 hv, Option.bind_some, parseU64_iff.2 hn]; rfl
      · rw [hdel.2 hl]; exact he.symm
    rw [e1, e2, e3, e4, e5, e6]

theorem updateArgs_iff {args : List (List Char)} {g : Given} (h : Says updateOpts args g) (a : UpdateArgs) : updateArgs g = a ↔ UpdateMeans g a := by
  have hd : Distinct g := h.1
  have ht := h.fromTable
  have hf := has_flag updateOpts_ok hd ht (d := ⟨"force".toList, some 'f', .flag⟩) (by simp [updateOpts]) rfl
  have hs := has_flag updateOpts_ok hd ht (d := ⟨"server".toList, some 's', .flag⟩) (by simp [updateOpts]) rfl
  simp only at hf hs
  constructor
  · rintro rfl
    exact ⟨hf, fun t => value_iff hd, fun t => value_iff hd, hs⟩
  · intro hm
    obtain ⟨force, version, binPath, server⟩ := a
    unfold updateArgs
    have opt : ∀ {n : List Char} {o : Option (List Char)}, (∀ t, o = some t ↔ (n, some t) ∈ g) → g.value n = o := by
      intro n o ho
      cases hi : g.value n with
      | none =>
        cases o with
        | none => rfl
        | some t => exact absurd ((ho t).1 rfl) (by rw [value_none hd] at hi; exact hi t)
      | some t => exact ((ho t).2 ((value_iff hd).1 hi)).symm
    have e1 : g.has "force".toList = force := Bool.eq_iff_iff.2 (hf.trans hm.force.symm)
    have e2 : g.has "server".toList = server := Bool.eq_iff_iff.2 (hs.trans hm.server.symm)
    rw [e1, e2, opt hm.version, opt hm.binPath]

/-- A command without options. -/
theorem noOpts_iff (args : List (List Char)) : (∃ g, parseArgs noOpts [] none args = .ok g) ↔ Says noOpts args [] := by
  constructor
  · rintro ⟨g, h⟩
    have hs := (C96_understood_iff noOpts_ok args g).1 h
    have : g = [] := by
      cases g with
      | nil => rfl
      | cons x xs =>
        obtain ⟨d, hd, _, hk⟩ := hs.fromTable x.1 x.2 List.mem_cons_self
        have : d = helpOpt := by simpa [noOpts] using hd
        subst this
        rcases hk with ⟨hk, _⟩ | ⟨_, ⟨_, acc, hk, _⟩, _⟩ <;> cases hk
    rw [this] at hs
    exact hs
  · exact fun h => ⟨[], (C96_understood_iff noOpts_ok args []).2 h⟩

/-- **C96.** The client does a thing exactly if the command line says so. -/
theorem C96_client_understands (args : List (List Char)) (c : ClientCmd) : parseClient args = .ok c ↔ ClientSays args c := by
  have none_iff : ∀ (rest : List (List Char)) (k : ClientCmd), (parseArgs noOpts [] none rest).map (fun _ => k) = .ok c ↔ c = k ∧ Says noOpts rest [] := by
    intro rest k
    rw [← noOpts_iff]
    cases parseArgs noOpts [] none rest with
    | error e =>
      constructor
      · intro h; cases h
      · rintro ⟨_, g, h⟩; cases h
    | ok g =>
      constructor
      · intro h; cases h; exact ⟨rfl, g, rfl⟩
      · rintro ⟨rfl, _⟩; rfl
  cases args with
  | nil =>
    constructor
    · intro h; cases h
    · intro h
      cases c <;> obtain ⟨_, h⟩ := h
      · exact absurd h.1 (by simp)
      · obtain ⟨_, h, _⟩ := h; cases h
      · obtain ⟨_, h, _⟩ := h; cases h
      · exact absurd h.1 (by simp)
      · exact absurd h.1 (by simp)
  | cons a rest =>
    have says : ∀ {c : ClientCmd}, ClientSays (a :: rest) c → a = (match c with
        | .gen => "gen".toList
        | .send _ => "send".toList
        | .update _ => "update".toList
        | .wizard => "wizard".toList
        | .reseed => "reseed".toList) := by
      intro c h
      cases c with
      | gen => obtain ⟨_, h, _⟩ := h; cases h; rfl
      | send x => obtain ⟨_, _, h, _⟩ := h; cases h; rfl
      | update x => obtain ⟨_, _, h, _⟩ := h; cases h; rfl
      | wizard => obtain ⟨_, h, _⟩ := h; cases h; rfl
      | reseed => obtain ⟨_, h, _⟩ := h; cases h; rfl
    rw [parseClient.eq_2]
    by_cases h1 : a = "gen".toList
    · subst h1
      rw [if_pos rfl, none_iff]
      constructor
      · rintro ⟨rfl, h⟩; exact ⟨rest, rfl, h⟩
      · intro h
        have hs := says h
        cases c with
        | gen => obtain ⟨_, he, h⟩ := h; cases he; exact ⟨rfl, h⟩
        | _ => simp only at hs; exact absurd hs (by decide)
    rw [if_neg h1]
    by_cases h2 : a = "send".toList
    · subst h2
      rw [if_pos rfl]
      constructor
      · intro h
        cases hp : parseArgs sendOpts [] none rest with
        | error e => rw [hp] at h; cases h
        | ok g =>
          rw [hp] at h
          simp only at h
          have hs := (C96_understood_iff sendOpts_ok rest g).1 hp
          cases hx : sendArgs g with
          | error e => rw [hx] at h; cases h
          | ok x =>
            rw [hx] at h
            cases h
            exact ⟨rest, g, rfl, hs, (sendArgs_iff hs x).1 hx⟩
      · intro h
        have hs := says h
        cases c with
        | send x =>
          obtain ⟨_, g, he, h, hm⟩ := h
          cases he
          rw [(C96_understood_iff sendOpts_ok rest g).2 h]
          simp only
          rw [(sendArgs_iff h x).2 hm]
          rfl
        | _ => simp only at hs; exact absurd hs (by decide)
    rw [if_neg h2]
    by_cases h3 : a = "update".toList
    · subst h3
      rw [if_pos rfl]
      constructor
      · intro h
        cases hp : parseArgs updateOpts [] none rest with
        | error e => rw [hp] at h; cases h
        | ok g =>
          rw [hp] at h
          cases h
          have hs := (C96_understood_iff updateOpts_ok rest g).1 hp
          exact ⟨rest, g, rfl, hs, (updateArgs_iff hs _).1 rfl⟩
      · intro h
        have hs := says h
        cases c with
        | update x =>
          obtain ⟨_, g, he, h, hm⟩ := h
          cases he
          rw [(C96_understood_iff updateOpts_ok rest g).2 h, ← (updateArgs_iff h x).2 hm]
          rfl
        | _ => simp only at hs; exact absurd hs (by decide)
    rw [if_neg h3]
    by_cases h4 : a = "wizard".toList
    · subst h4
      rw [if_pos rfl, none_iff]
      constructor
      · rintro ⟨rfl, h⟩; exact ⟨rest, rfl, h⟩
      · intro h
        have hs := says h
        cases c with
        | wizard => obtain ⟨_, he, h⟩ := h; cases he; exact ⟨rfl, h⟩
        | _ => simp only at hs; exact absurd hs (by decide)
    rw [if_neg h4]
    by_cases h5 : a = "reseed".toList
    · subst h5
      rw [if_pos rfl, none_iff]
      constructor
      · rintro ⟨rfl, h⟩; exact ⟨rest, rfl, h⟩
      · intro h
        have hs := says h
        cases c with
        | reseed => obtain ⟨_, he, h⟩ := h; cases he; exact ⟨rfl, h⟩
        | _ => simp only at hs; exact absurd hs (by decide)
    rw [if_neg h5]
    constructor
    · intro h
      split at h
      · cases h
      · split at h <;> cases h
    · intro h
      have hs := says h
      cases c
      · exact absurd hs h1
      · exact absurd hs h2
      · exact absurd hs h3
      · exact absurd hs h4
      · exact absurd hs h5

/-! ## Every request can be written, in any order -/

theorem spelled_append {t : List OptDef} {a b : Given} {x y : List (List Char)} (h1 : Spelled t a x) (h2 : Spelled t b y) : Spelled t (a ++ b) (x ++ y) := by
  induction h1 with
  | nil => exact h2
  | cons hw _ ih => rw [List.append_assoc, List.append_assoc]; exact .cons hw ih

theorem spelled_one {t : List OptDef} {g : Given} {ws : List (List Char)} (h : Words t g ws) : Spelled t g ws := by
  have := Spelled.cons h (Spelled.nil (t := t))
  rwa [List.append_nil, List.append_nil] at this

theorem spelled_if {t : List OptDef} (b : Bool) {d : OptDef} {w : List Char} (hd : d ∈ t) (hk : d.kind = .flag) (hw : w = '-' :: '-' :: d.long) :
    Spelled t (if b then [(d.long, none)] else []) (if b then [w] else []) := by
  cases b
  · exact .nil
  · rw [hw]; exact spelled_one (.flag hd hk)

theorem milliseconds_digits {n : Nat} (hn : n < 2 ^ 64) : parseU64 (Nat.toDigits 10 n) = some n := parseU64_digits hn

/-- The options of `writeSend`. -/
def sendGiven (a : SendArgs) : Given :=
  [("address".toList, some a.cmd.address), ("key-file".toList, some a.keyFile), ("command".toList, some a.cmd.command), ("send-delay-ms".toList, some (Nat.toDigits 10 a.cmd.delayMs))] ++
    (if a.cmd.permissive then [("permissive".toList, none)] else []) ++ (if a.cmd.ipv4 then [("ipv4".toList, none)] else []) ++ (if a.cmd.ipv6 then [("ipv6".toList, none)] else []) ++
    (match a.cmd.ip with
     | some t => [("ip".toList, some t)]
     | none => [])

theorem says_writeSend (a : SendArgs) (hk : a.keyFile ≠ []) (hn : a.cmd.delayMs < 2 ^ 64) : Says sendOpts (writeSend a) (sendGiven a) := by
  refine ⟨?_, writeSend a, ?_, Or.inl rfl⟩
  · obtain ⟨⟨address, command, permissive, ip, ipv4, ipv6, delayMs⟩, keyFile⟩ := a
    unfold sendGiven
    cases permissive <;> cases ipv4 <;> cases ipv6 <;> cases ip <;> simp only [List.map_append, List.map_cons, List.map_nil, Bool.false_eq_true, if_false, if_true] <;> decide
  · unfold writeSend sendGiven
    refine spelled_append (spelled_append (spelled_append (spelled_append ?_ ?_) ?_) ?_) ?_
    · refine Spelled.cons (h := [_]) (ws := [_]) (.equals (d := ⟨"address".toList, some 'a', .value anyText⟩) ⟨by simp [sendOpts], anyText, rfl, rfl⟩) ?_
      refine Spelled.cons (h := [_]) (ws := [_]) (.equals (d := ⟨"key-file".toList, some 'k', .value someText⟩) ⟨by simp [sendOpts], someText, rfl, ?_⟩) ?_
      · unfold someText
        cases h : a.keyFile with
        | nil => exact absurd h hk
        | cons c cs => rfl
      refine Spelled.cons (h := [_]) (ws := [_]) (.equals (d := ⟨"command".toList, some 'c', .value anyText⟩) ⟨by simp [sendOpts], anyText, rfl, rfl⟩) ?_
      refine spelled_one (.equals (d := ⟨"send-delay-ms".toList, some 'd', .value (fun v => (parseU64 v).isSome)⟩) ⟨by simp [sendOpts], _, rfl, ?_⟩)
      rw [milliseconds_digits hn]
      rfl
    · exact spelled_if _ (d := ⟨"permissive".toList, some 'e', .flag⟩) (by simp [sendOpts]) rfl rfl
    · exact spelled_if _ (d := ⟨"ipv4".toList, some '4', .flag⟩) (by simp [sendOpts]) rfl rfl
    · exact spelled_if _ (d := ⟨"ipv6".toList, some '6', .flag⟩) (by simp [sendOpts]) rfl rfl
    · cases a.cmd.ip with
      | none => exact .nil
      | some t => exact spelled_one (.equals (d := ⟨"ip".toList, some 'i', .value anyText⟩) ⟨by simp [sendOpts], anyText, rfl, rfl⟩)

theorem means_sendGiven (a : SendArgs) (hk : a.keyFile ≠ []) (hn : a.cmd.delayMs < 2 ^ 64) : SendMeans (sendGiven a) a := by
  refine (sendArgs_iff (says_writeSend a hk hn) a).1 ?_
  have hm := milliseconds_digits hn
  obtain ⟨⟨address, command, permissive, ip, ipv4, ipv6, delayMs⟩, keyFile⟩ := a
  have h : sendArgs (sendGiven ⟨⟨address, command, permissive, ip, ipv4, ipv6, delayMs⟩, keyFile⟩) =
      .ok ⟨⟨address, command, permissive, ip, ipv4, ipv6, ((some (Nat.toDigits 10 delayMs)).bind parseU64).getD 50⟩, keyFile⟩ := by
    cases permissive <;> cases ipv4 <;> cases ipv6 <;> cases ip <;> rfl
  rw [h, Option.bind_some, hm]
  rfl

/-- **C96.** Every request can be asked for on the command line, whatever characters its address, its key file's name and its command have: hyphens, spaces and equals signs included. -/
theorem C96_every_request_can_be_written (a : SendArgs) (hk : a.keyFile ≠ []) (hn : a.cmd.delayMs < 2 ^ 64) : parseClient ("send".toList :: writeSend a) = .ok (.send a) :=
  (C96_client_understands _ _).2 ⟨_, _, rfl, says_writeSend a hk hn, means_sendGiven a hk hn⟩

/-- … and no other request can be asked for: a key file has a name, the delay is below 2^64. -/
theorem C96_requests_are_such {args : List (List Char)} {a : SendArgs} (h : parseClient args = .ok (.send a)) : a.keyFile ≠ [] ∧ a.cmd.delayMs < 2 ^ 64 := by
  obtain ⟨rest, g, _, hs, hm⟩ := (C96_client_understands _ _).1 h
  constructor
  · rcases fromTable_def sendOpts_ok hs.fromTable (d := ⟨"key-file".toList, some 'k', .value someText⟩) (by simp [sendOpts]) hm.keyFile with ⟨hk, _⟩ | ⟨x, ⟨_, acc, hk, hx⟩, he⟩
    · cases hk
    · cases he
      cases hk
      intro e
      rw [e] at hx
      cases hx
  · rcases hm.delay with ⟨v, _, ds, _, _, _, _, h⟩ | ⟨_, h⟩
    · exact h
    · rw [h]; decide

theorem Spec.SendMeans.perm {g g' : Given} {a : SendArgs} (hp : g.Perm g') (h : SendMeans g a) : SendMeans g' a := by
  have hmem : ∀ x, x ∈ g ↔ x ∈ g' := fun x => hp.mem_iff
  refine ⟨(hmem _).1 h.address, (hmem _).1 h.keyFile, ?_, h.permissive.trans (hmem _), fun t => (h.ip t).trans (hmem _), h.ipv4.trans (hmem _), h.ipv6.trans (hmem _), ?_⟩
  · rcases h.command with hc | ⟨hc, he⟩
    · exact Or.inl ((hmem _).1 hc)
    · exact Or.inr ⟨fun v hv => hc v ((hmem _).2 hv), he⟩
  · rcases h.delay with ⟨v, hv, hn⟩ | ⟨hc, he⟩
    · exact Or.inl ⟨v, (hmem _).1 hv, hn⟩
    · exact Or.inr ⟨fun v hv => hc v ((hmem _).2 hv), he⟩

/-- **C96.** The order of the options does not matter, nor which of the ways to write them is used. -/
theorem C96_order_irrelevant {args args' : List (List Char)} {g g' : Given} (h : Says sendOpts args g) (h' : Says sendOpts args' g') (hp : g.Perm g') (a : SendArgs)
    (hs : parseClient ("send".toList :: args) = .ok (.send a)) : parseClient ("send".toList :: args') = .ok (.send a) := by
  obtain ⟨rest, g1, he, h1, hm⟩ := (C96_client_understands _ _).1 hs
  cases he
  cases says_unique sendOpts_ok h h1
  exact (C96_client_understands _ _).2 ⟨_, _, rfl, h', hm.perm hp⟩

/-! ## Command lines that are refused -/

theorem pending_refused (t : List OptDef) (g : Given) (d : OptDef) {rest : List (List Char)} (h : ∀ v r, rest = v :: r → ¬ PlainWord v) : parseArgs t g (some d) rest = .error .usage := by
  cases rest with
  | nil => rfl
  | cons a r =>
    rcases word_cases a with rfl | ⟨n, hn, rfl⟩ | ⟨c, cs, hc, rfl⟩ | hp
    · rw [parseArgs_escape]; simp
    · exact parseArgs_long_pending t g d hn r
    · exact parseArgs_short_pending t g d hc cs r
    · exact absurd hp (h a r rfl)

/-- **C96**, a value is missing: an option that takes one, followed by nothing or by something that begins with a hyphen. The next option is not taken for the value, and the command line is refused. -/
theorem C96_missing_value {t : List OptDef} (ht : TableOk t) {core : List (List Char)} {g : Given} (hs : Spelled t g core) (hg : (g.map (·.1)).Nodup) {d : OptDef} {acc : List Char → Bool} (hd : d ∈ t)
    (hk : d.kind = .value acc) (rest : List (List Char)) (hr : ∀ v r, rest = v :: r → ¬ PlainWord v) : parseArgs t [] none (core ++ ('-' :: '-' :: d.long) :: rest) = .error .usage := by
  rw [parse_spelled ht hs (g := []) hg, List.nil_append, parseArgs_long t g (ht.2.2.1 _ hd), (parseLong_ok ht hg).2 (Or.inr (Or.inr ⟨d, acc, hd, hk, rfl, rfl, rfl⟩))]
  exact pending_refused t g d hr

/-- **C96**, the same with letters: `-6ei` of the documentation, when the program that was to print the address printed nothing. -/
theorem C96_missing_value_letters {t : List OptDef} (ht : TableOk t) {core : List (List Char)} {g k : Given} {fs : List Char} (hs : Spelled t g core) (hl : Letters t k fs)
    (hg : ((g ++ k).map (·.1)).Nodup) {d : OptDef} {c : Char} {acc : List Char → Bool} (hd : d ∈ t) (hk : d.kind = .value acc) (hc : d.short = some c) (rest : List (List Char))
    (hr : ∀ v r, rest = v :: r → ¬ PlainWord v) : parseArgs t [] none (core ++ ('-' :: (fs ++ [c])) :: rest) = .error .usage := by
  have hg1 : Distinct g := distinct_left hg
  rw [parse_spelled ht hs (g := []) hg1, List.nil_append]
  have hshort := (parseShort_ok ht hg1).2 (Or.inr (Or.inr ⟨k, fs, d, c, acc, hl, hd, hk, hc, rfl, rfl, rfl, hg⟩))
  have hhead : ∃ y ys, fs ++ [c] = y :: ys ∧ y ≠ '-' := by
    cases hl with
    | nil => exact ⟨c, [], rfl, fun e => by subst e; exact ht.2.2.2.2 d hd hc⟩
    | cons hd' _ hs' _ => exact ⟨_, _, rfl, fun e => by subst e; exact ht.2.2.2.2 _ hd' hs'⟩
  obtain ⟨y, ys, he, hy⟩ := hhead
  rw [he] at hshort ⊢
  rw [parseArgs_short t g hy, hshort]
  exact pending_refused t _ d hr

/-- **C96**, an option there is not. -/
theorem C96_unknown_option {t : List OptDef} (ht : TableOk t) {core : List (List Char)} {g : Given} (hs : Spelled t g core) (hg : (g.map (·.1)).Nodup) {n : List Char} (hn : n ≠ []) (heq : '=' ∉ n)
    (hu : ∀ d ∈ t, d.long ≠ n) (tail : List Char) (htail : tail = [] ∨ tail.head? = some '=') (rest : List (List Char)) :
    parseArgs t [] none (core ++ ('-' :: '-' :: (n ++ tail)) :: rest) = .error .usage := by
  rw [parse_spelled ht hs (g := []) hg, List.nil_append, parseArgs_long t g (by simp [hn])]
  have hsplit : (splitEq (n ++ tail)).1 = n := by
    rcases htail with rfl | h
    · rw [List.append_nil, splitEq_none heq]
    · cases tail with
      | nil => cases h
      | cons x v => cases h; rw [splitEq_some heq]
  have hb : byLong t n = none := by
    unfold byLong
    rw [List.find?_eq_none]
    intro d hd
    simpa using hu d hd
  unfold parseLong
  rw [hsplit, hb]

/-- Flags that repeat one are refused. -/
theorem parseShort_letters {t : List OptDef} (ht : TableOk t) {k : Given} {fs : List Char} (hl : Letters t k fs) : ∀ {g : Given} {tl : List Char} {r : Given × Option OptDef}, Distinct g →
    parseShort t g (fs ++ tl) = .ok r → Distinct (g ++ k) ∧ parseShort t (g ++ k) tl = .ok r := by
  induction hl with
  | nil => intro g tl r hg h; rw [List.append_nil]; exact ⟨hg, h⟩
  | cons hd hk hs _ ih =>
    intro g tl r hg h
    rw [List.cons_append, parseShort, byShort_mem ht hd hs] at h
    simp only [hk] at h
    cases hp : g.push _ none with
    | error e => rw [hp] at h; cases h
    | ok g1 =>
      rw [hp] at h
      obtain ⟨rfl, hg1⟩ := (push_distinct hg).1 hp
      have := ih hg1 h
      rwa [List.append_assoc] at this

/-- **C96**, an option twice. -/
theorem C96_twice_refused {t : List OptDef} (ht : TableOk t) {args : List (List Char)} {g : Given} (hs : Spelled t g args) (hg : ¬ (g.map (·.1)).Nodup) (g' : Given) :
    parseArgs t [] none args ≠ .ok g' := by
  -- the words up to the first repetition are read, and then the parser stops
  suffices h : ∀ (g0 : Given), Distinct g0 → ¬ Distinct (g0 ++ g) → parseArgs t g0 none args ≠ .ok g' from h [] List.nodup_nil hg
  clear hg
  induction hs with
  | nil => intro g0 h0 hn; rw [List.append_nil] at hn; exact absurd h0 hn
  | @cons k g ws args hw _ ih =>
    intro g0 h0 hn hp
    by_cases hk : Distinct (g0 ++ k)
    · rw [parse_words ht hw h0 hk] at hp
      exact ih (g0 ++ k) hk (by rw [List.append_assoc]; exact hn) hp
    · -- the repetition is in these words
      have short : ∀ {c : Char} {cs : List Char} {r : List (List Char)}, c ≠ '-' → parseArgs t g0 none (('-' :: c :: cs) :: r) = .ok g' →
          ∃ x, parseShort t g0 (c :: cs) = .ok x ∧ parseArgs t x.1 x.2 r = .ok g' := by
        intro c cs r hc h
        rw [parseArgs_short t g0 hc] at h
        cases hx : parseShort t g0 (c :: cs) with
        | error e => rw [hx] at h; cases h
        | ok x => rw [hx] at h; exact ⟨x, rfl, h⟩
      have lettersThen : ∀ {h : Given} {fs : List Char} {d : OptDef} {c : Char} {v : List Char} {r : List (List Char)}, Letters t h fs → d ∈ t → d.short = some c →
          parseArgs t g0 none (('-' :: (fs ++ c :: v)) :: r) = .ok g' → Distinct (g0 ++ h) ∧ ∃ x, parseShort t (g0 ++ h) (c :: v) = .ok x ∧ parseArgs t x.1 x.2 r = .ok g' := by
        intro h fs d c v r hl hd hs hpa
        have hhead : ∃ y ys, fs ++ c :: v = y :: ys ∧ y ≠ '-' := by
          cases hl with
          | nil => exact ⟨c, v, rfl, fun e => by subst e; exact ht.2.2.2.2 d hd hs⟩
          | cons hd' _ hs' _ => exact ⟨_, _, rfl, fun e => by subst e; exact ht.2.2.2.2 _ hd' hs'⟩
        obtain ⟨y, ys, he, hy⟩ := hhead
        rw [he] at hpa
        obtain ⟨x, h1, h2⟩ := short hy hpa
        rw [← he] at h1
        obtain ⟨h3, h4⟩ := parseShort_letters ht hl h0 h1
        exact ⟨h3, x, h4, h2⟩
      cases hw with
      | @flag d hd hkind =>
        rw [List.singleton_append, parseArgs_long t g0 (ht.2.2.1 _ hd)] at hp
        cases hl : parseLong t g0 d.long with
        | error e => rw [hl] at hp; cases hp
        | ok x =>
          obtain ⟨g1, p⟩ := x
          unfold parseLong at hl
          rw [splitEq_none (ht.2.2.2.1 _ hd), byLong_mem ht hd] at hl
          simp only [hkind] at hl
          cases hpush : g0.push d.long none with
          | error e => rw [hpush] at hl; cases hl
          | ok g2 => obtain ⟨rfl, h⟩ := (push_distinct h0).1 hpush; exact hk h
      | @equals d v hv =>
        obtain ⟨acc, hkind, _⟩ := hv.2
        rw [List.singleton_append, parseArgs_long t g0 (by simp)] at hp
        cases hl : parseLong t g0 (d.long ++ '=' :: v) with
        | error e => rw [hl] at hp; cases hp
        | ok x =>
          obtain ⟨g1, p⟩ := x
          unfold parseLong at hl
          rw [splitEq_some (ht.2.2.2.1 _ hv.1), byLong_mem ht hv.1] at hl
          simp only [hkind] at hl
          cases hpush : g0.pushValue d v with
          | error e => rw [hpush] at hl; cases hl
          | ok g2 => obtain ⟨_, rfl, h⟩ := (pushValue_distinct hv.1 h0).1 hpush; exact hk h
      | @next d v hv hpl =>
        obtain ⟨acc, hkind, _⟩ := hv.2
        rw [show ['-' :: '-' :: d.long, v] ++ args = ('-' :: '-' :: d.long) :: v :: args from rfl, parseArgs_long t g0 (ht.2.2.1 _ hv.1),
          (parseLong_ok ht h0).2 (Or.inr (Or.inr ⟨d, acc, hv.1, hkind, rfl, rfl, rfl⟩))] at hp
        obtain ⟨v', r', he, _, _, h, _⟩ := (parseArgs_pending hv.1 h0).1 hp
        cases he
        exact hk h
      | @letters k cs hl hne =>
        cases cs with
        | nil => exact hne rfl
        | cons c cs =>
          obtain ⟨x, h1, _⟩ := short (letters_head ht hl rfl) hp
          rw [← List.append_nil (c :: cs)] at h1
          exact hk (parseShort_letters ht hl h0 h1).1
      | @attached k cs d c v hl hv hs hne hne2 =>
        obtain ⟨acc, hkind, _⟩ := hv.2
        obtain ⟨h1, x, h2, _⟩ := lettersThen hl hv.1 hs hp
        rw [parseShort, byShort_mem ht hv.1 hs] at h2
        simp only [hkind] at h2
        rw [← List.append_assoc] at hk
        split at h2
        · exact hne rfl
        · exact hne2 rfl
        · cases hpush : (g0 ++ k).pushValue d v with
          | error e => rw [hpush] at h2; cases h2
          | ok g2 => obtain ⟨_, rfl, h⟩ := (pushValue_distinct hv.1 h1).1 hpush; exact hk h
      | @letterEquals k cs d c v hl hv hs =>
        obtain ⟨acc, hkind, _⟩ := hv.2
        obtain ⟨h1, x, h2, _⟩ := lettersThen hl hv.1 hs hp
        rw [parseShort, byShort_mem ht hv.1 hs] at h2
        simp only [hkind] at h2
        rw [← List.append_assoc] at hk
        cases hpush : (g0 ++ k).pushValue d v with
        | error e => rw [hpush] at h2; cases h2
        | ok g2 => obtain ⟨_, rfl, h⟩ := (pushValue_distinct hv.1 h1).1 hpush; exact hk h
      | @letterNext k cs d c v hl hv hs hpl =>
        obtain ⟨acc, hkind, _⟩ := hv.2
        obtain ⟨h1, x, h2, h3⟩ := lettersThen (r := v :: args) hl hv.1 hs hp
        rw [parseShort, byShort_mem ht hv.1 hs] at h2
        simp only [hkind] at h2
        cases h2
        rw [← List.append_assoc] at hk
        obtain ⟨v', r', he, _, _, h, _⟩ := (parseArgs_pending hv.1 h1).1 h3
        cases he
        exact hk h

/-! ## The whole program -/

/-- **C96.** A command line that is not understood has no effect at all. -/
theorem C96_not_understood (A : Aead) (hash : List Char → U64) (dir : Path) (e : ClientEnv) (args : List (List Char)) (w : World) (h : ∀ c, ¬ ClientSays args c) :
    (clientMain A hash dir e args w).2 = w ∧ ∃ s, (clientMain A hash dir e args w).1 = .error s := by
  unfold clientMain
  cases hp : parseClient args with
  | error s => exact ⟨rfl, s, rfl⟩
  | ok c => exact absurd ((C96_client_understands args c).1 hp) (h c)

theorem install_no_udp {F M : Path → Prop} {P : List (List String)} {w w' : World} (h : Within F (InstallMay F M P) w w') (ip : Ip) (port : Nat) (c : U128) (bytes : List Byte) :
    .udp ip port c bytes ∉ w'.log.drop w.log.length := by
  obtain ⟨l, hl, he⟩ := h.1
  rw [hl, List.drop_left]
  intro hm
  cases he _ hm

/-- **C96.** A datagram leaves the client only if the command line says `send`, and then it carries what the command line says: the command, the claimed address, strict or not; it goes to an
address that the given one resolves to, and is sealed with the key in the named file. -/
theorem C96_datagram_says_what_the_line_says (A : Aead) (hA : A.Correct) (hash : List Char → U64) (dir : Path) (e : ClientEnv) (args : List (List Char)) (w : World)
    (hrnd : ∀ i iv, e.rnd i = some iv → iv.length = 12) (ip : Ip) (port : Nat) (c : U128) (bytes : List Byte) (hsent : .udp ip port c bytes ∈ (clientMain A hash dir e args w).2.log.drop w.log.length) :
    ∃ a, ClientSays args (.send a) ∧ ∃ key h address all d, e.keyFile a.keyFile = some key ∧ CryptoHandler.create (trim key) = .ok h ∧ ensurePort a.cmd.address 80 = .ok address ∧
      e.resolve address = some all ∧ ⟨ip, port⟩ ∈ all ∧ bytes.length = 94 ∧ bytes.take 8 = h.id ∧ Seals A h.key bytes d ∧ d.cmdHash = hash a.cmd.command ∧ d.counter = c ∧
      d.strict = !a.cmd.permissive ∧ d.dstIp = normalizeIp ip ∧ (a.cmd.ip = none → d.srcIp = none) ∧
      (∀ t, a.cmd.ip = some t → ∃ x, parseIp t = some x ∧ (x ≠ .v6 0 → d.srcIp = some (normalizeIp x))) := by
  unfold clientMain at hsent
  cases hp : parseClient args with
  | error s =>
    rw [hp] at hsent
    simp only [List.drop_length] at hsent
    cases hsent
  | ok cmd =>
    rw [hp] at hsent
    simp only at hsent
    have hsays := (C96_client_understands args cmd).1 hp
    cases cmd with
    | gen =>
      have h := logs_clientLock (fun _ _ _ _ => False) (dir ++ "/client.lock".toList) e.held w
      exact absurd (h.drop _ hsent ip port c bytes rfl) id
    | send a =>
      refine ⟨a, hsays, ?_⟩
      exact C63_datagram_says_what_was_asked A hA hash dir e.held a.cmd _ w _ _ hrnd rfl ip port c bytes hsent
    | update a => exact absurd hsent (install_no_udp (C88_update_confined dir e.held e.dirs a e.update w) ip port c bytes)
    | wizard => exact absurd hsent (install_no_udp (C88_wizard_confined dir e.held e.wizard w) ip port c bytes)
    | reseed =>
      obtain ⟨l, hl, he⟩ := (C85_reseed_confined (dir := dir) e.held w).1
      change _ ∈ (runReseed dir e.held w).2.log.drop _ at hsent
      rw [hl, List.drop_left] at hsent
      cases he _ hsent with
      | udp _ _ _ _ h => exact absurd h id

/-- **C96.** Other programs are started only if the command line says `wizard`. -/
theorem C96_programs_only_for_wizard (A : Aead) (hash : List Char → U64) (dir : Path) (e : ClientEnv) (args : List (List Char)) (w : World) (argv : List (List Char))
    (hrun : .program argv ∈ (clientMain A hash dir e args w).2.log.drop w.log.length) : ClientSays args .wizard := by
  unfold clientMain at hrun
  cases hp : parseClient args with
  | error s =>
    rw [hp] at hrun
    simp only [List.drop_length] at hrun
    cases hrun
  | ok cmd =>
    rw [hp] at hrun
    simp only at hrun
    have hsays := (C96_client_understands args cmd).1 hp
    have no : ∀ {F E : _} {w' : World}, Within F E w w' → (∀ x, ¬ E (.program x)) → .program argv ∈ w'.log.drop w.log.length → False := by
      intro F E w' h hE hm
      obtain ⟨l, hl, he⟩ := h.1
      rw [hl, List.drop_left] at hm
      exact hE _ (he _ hm)
    cases cmd with
    | gen =>
      refine absurd hrun (no (within_acquireLock (F := ClientFile dir) (p := dir ++ "/client.lock".toList) (held := e.held) (.inr (.inr rfl)) w : Within (ClientFile dir) (ClientMay (ClientFile dir) (fun _ _ => False)) w _) ?_)
      intro x h; cases h
    | send a => refine absurd hrun (no (C85_send_confined (A := A) (hash := hash) (dir := dir) e.held a.cmd _ w) ?_); intro x h; cases h
    | update a => refine absurd hrun (no (C88_update_confined dir e.held e.dirs a e.update w) ?_); intro x h; cases h; contradiction
    | wizard => exact hsays
    | reseed => refine absurd hrun (no (C85_reseed_confined (dir := dir) e.held w) ?_); intro x h; cases h

/-! ## The server and the commander -/

theorem pathMeans_iff {t : List OptDef} (ht : TableOk t) {args : List (List Char)} {g : Given} (h : Says t args g) {name default : String} {short : Option Char} {acc : List Char → Bool}
    (hm : ⟨name.toList, short, .value acc⟩ ∈ t) (p : Path) : (g.value name.toList).getD default.toList = p ↔ PathMeans g name default p := by
  have hd : Distinct g := h.1
  have hl := lacks_value ht hd h.fromTable hm rfl
  simp only at hl
  unfold PathMeans Gives1
  cases hv : g.value name.toList with
  | none =>
    have hno := hl.1 hv
    constructor
    · rintro rfl; exact Or.inr ⟨hno, rfl⟩
    · rintro (hp | ⟨_, rfl⟩)
      · exact absurd hp (hno _)
      · rfl
  | some v =>
    have hm := (value_iff hd).1 hv
    constructor
    · rintro rfl; exact Or.inl hm
    · rintro (hp | ⟨hp, _⟩)
      · rw [(value_iff hd).2 hp] at hv; cases hv; rfl
      · exact absurd hm (hp _)

/-- **C96**, the server: the configuration read is the one named, or `/etc/ruroco/config.toml`. -/
theorem C96_server_reads (args : List (List Char)) (p : Path) : parseServer args = .ok p ↔ ∃ g, Says serverOpts args g ∧ PathMeans g "config" "/etc/ruroco/config.toml" p := by
  unfold parseServer
  constructor
  · intro h
    cases hp : parseArgs serverOpts [] none args with
    | error e => rw [hp] at h; cases h
    | ok g =>
      rw [hp] at h
      have hs := (C96_understood_iff serverOpts_ok args g).1 hp
      refine ⟨g, hs, (pathMeans_iff serverOpts_ok hs (short := some 'c') (acc := someText) (by simp [serverOpts]) p).1 ?_⟩
      exact Except.ok.inj h
  · rintro ⟨g, hs, hm⟩
    rw [(C96_understood_iff serverOpts_ok args g).2 hs]
    exact congrArg Except.ok ((pathMeans_iff serverOpts_ok hs (short := some 'c') (acc := someText) (by simp [serverOpts]) p).2 hm)

/-- **C96**, the commander: likewise, for its two files. -/
theorem C96_commander_reads (args : List (List Char)) (p q : Path) : parseCommander args = .ok (p, q) ↔
    ∃ g, Says commanderOpts args g ∧ PathMeans g "config" "/etc/ruroco/config.toml" p ∧ PathMeans g "commands" "/etc/ruroco/commands.toml" q := by
  unfold parseCommander
  constructor
  · intro h
    cases hp : parseArgs commanderOpts [] none args with
    | error e => rw [hp] at h; cases h
    | ok g =>
      rw [hp] at h
      have hs := (C96_understood_iff commanderOpts_ok args g).1 hp
      have h := Except.ok.inj h
      refine ⟨g, hs, (pathMeans_iff commanderOpts_ok hs (short := some 'c') (acc := someText) (by simp [commanderOpts]) p).1 (congrArg Prod.fst h),
        (pathMeans_iff commanderOpts_ok hs (short := none) (acc := someText) (by simp [commanderOpts]) q).1 (congrArg Prod.snd h)⟩
  · rintro ⟨g, hs, hm, hm'⟩
    rw [(C96_understood_iff commanderOpts_ok args g).2 hs]
    refine congrArg Except.ok (Prod.ext ?_ ?_)
    · exact (pathMeans_iff commanderOpts_ok hs (short := some 'c') (acc := someText) (by simp [commanderOpts]) p).2 hm
    · exact (pathMeans_iff commanderOpts_ok hs (short := none) (acc := someText) (by simp [commanderOpts]) q).2 hm'

/-- **C96**, as shipped: the units start the programs with the files that the wizard writes. -/
theorem C96_shipped_units_read_installed_files :
    (∃ p, parseServer (serverUnit.words "ExecStart").tail = .ok p ∧ p = "/etc/ruroco/config.toml".toList ∧ WizardFile p) ∧
    (∃ p q, parseCommander (commanderUnit.words "ExecStart").tail = .ok (p, q) ∧ p = "/etc/ruroco/config.toml".toList ∧ q = "/etc/ruroco/commands.toml".toList ∧ WizardFile p ∧ WizardFile q) :=
  ⟨⟨"/etc/ruroco/config.toml".toList, by decide +kernel, rfl, Or.inr (by decide)⟩,
    ⟨"/etc/ruroco/config.toml".toList, "/etc/ruroco/commands.toml".toList, by decide +kernel, rfl, rfl, Or.inr (by decide), Or.inr (by decide)⟩⟩

/-! ## Examples -/

private def cliWords (s : String) : List (List Char) := splitWs s.toList

/-- The command line of the README, and the request it stands for. -/
example : parseClient (cliWords "send -a host:80 -k /k -c open -6ei ::1") =
    .ok (.send ⟨⟨"host:80".toList, "open".toList, true, some "::1".toList, false, true, 50⟩, "/k".toList⟩) := rfl

/-- What C96_every_request_can_be_written and C96_order_irrelevant speak of exists: other order, other spelling, same request. -/
example : parseClient (cliWords "send --ip=::1 -k=/k --permissive -copen --ipv6 --address host:80 --") =
    .ok (.send ⟨⟨"host:80".toList, "open".toList, true, some "::1".toList, false, true, 50⟩, "/k".toList⟩) := rfl

/-- The hypotheses of C96_missing_value are met: `--ip` and the next option (the program that was to print the address printed nothing). -/
example : parseClient (cliWords "send -a host:80 -k /k --ip --permissive") = .error .usage ∧ parseClient (cliWords "send -a host:80 -k /k -6ei") = .error .usage := ⟨rfl, rfl⟩

example : Spelled sendOpts [("address".toList, some "host:80".toList)] (cliWords "-a host:80") :=
  spelled_one (.letterNext (g := []) (cs := []) (d := ⟨"address".toList, some 'a', .value anyText⟩) .nil ⟨by simp [sendOpts], anyText, rfl, rfl⟩ rfl (Or.inr (by decide)))

/-- C96_unknown_option: the key can not be given on the command line (the documentation says `-k KEY` in places); the wizard has no `--force`; C96_twice_refused. -/
example : parseClient (cliWords "send -a host:80 --key AAAA") = .error .usage ∧ parseClient (cliWords "wizard --force") = .error .usage ∧
    parseClient (cliWords "send -a host:80 -k /k -a other:80") = .error .usage := ⟨rfl, rfl, rfl⟩

example : (∀ d ∈ sendOpts, d.long ≠ "key".toList) ∧ ∀ d ∈ noOpts, d.long ≠ "force".toList := by decide

/-- The server's own defaults. -/
example : parseServer [] = .ok "/etc/ruroco/config.toml".toList ∧ parseServer (cliWords "-c /x") = .ok "/x".toList := ⟨rfl, rfl⟩

end Ruroco
