import Verif.Spec.Help

/-!
# C96: the options are those of the README
-/

namespace Ruroco

open Spec (AsDocumented HelpLine helpPlain helpSend helpUpdate helpService Documented)

theorem asDocumented_of {t : List OptDef} {help : List HelpLine}
    (hl : ∀ l ∈ help, ∃ d, byShort t l.letter = some d ∧ byLong t l.name = some d ∧ l.does.agrees d.kind)
    (hk : t.map (fun d => (d.long, d.short)) = help.map (fun l => (l.name, some l.letter))) : AsDocumented t help := by
  refine ⟨hl, fun d hd => ?_⟩
  have : (d.long, d.short) ∈ help.map (fun l => (l.name, some l.letter)) := hk ▸ List.mem_map_of_mem hd
  obtain ⟨l, hm, he⟩ := List.mem_map.mp this
  exact ⟨l, hm, (Prod.mk.inj he).1.symm, (Prod.mk.inj he).2.symm⟩

/-- **C96**: `send`, `update` and the commands without options have the options of the README, under the letters and names it gives, and no others. -/
theorem C96_options_as_documented : AsDocumented sendOpts helpSend ∧ AsDocumented updateOpts helpUpdate ∧ AsDocumented noOpts helpPlain := by
  refine ⟨asDocumented_of ?_ rfl, asDocumented_of ?_ rfl, asDocumented_of ?_ rfl⟩
  · simp only [helpSend, List.forall_mem_cons]
    refine ⟨?_, ?_, ?_, ?_, ?_, ?_, ?_, ?_, ?_, by simp⟩ <;> first | exact ⟨_, rfl, rfl, True.intro⟩ | exact ⟨_, rfl, rfl, rfl⟩
  · simp only [helpUpdate, List.forall_mem_cons]
    refine ⟨?_, ?_, ?_, ?_, ?_, by simp⟩ <;> first | exact ⟨_, rfl, rfl, True.intro⟩ | exact ⟨_, rfl, rfl, rfl⟩
  · simp only [helpPlain, List.forall_mem_cons]
    refine ⟨?_, by simp⟩
    exact ⟨_, rfl, rfl, rfl⟩

/-- **C96**: the server has the options of the README and no others; the commander has them and `--commands` (which the README does not list). -/
theorem C96_service_options : AsDocumented serverOpts helpService ∧ Documented commanderOpts helpService ∧
    ∀ d ∈ commanderOpts, (∃ l ∈ helpService, d.long = l.name ∧ d.short = some l.letter) ∨ (d.long = "commands".toList ∧ d.short = none) := by
  refine ⟨asDocumented_of ?_ rfl, ?_, ?_⟩
  · simp only [helpService, List.forall_mem_cons]
    refine ⟨?_, ?_, ?_, by simp⟩ <;> first | exact ⟨_, rfl, rfl, True.intro⟩ | exact ⟨_, rfl, rfl, rfl⟩
  · unfold Documented
    simp only [helpService, List.forall_mem_cons]
    refine ⟨?_, ?_, ?_, by simp⟩ <;> first | exact ⟨_, rfl, rfl, True.intro⟩ | exact ⟨_, rfl, rfl, rfl⟩
  · simp only [commanderOpts, List.forall_mem_cons]
    refine ⟨.inl ⟨_, .head _, rfl, rfl⟩, by simp, .inl ⟨_, .tail _ (.head _), rfl, rfl⟩, .inl ⟨_, .tail _ (.tail _ (.head _)), rfl, rfl⟩, by simp⟩

/-- **C96**: help and version, whatever follows (README.md:172-175). -/
theorem C96_help_and_version (rest : List (List Char)) :
    parseClient ("--help".toList :: rest) = .error .help ∧ parseClient ("-h".toList :: rest) = .error .help ∧ parseClient ("help".toList :: rest) = .error .help ∧
    parseClient ("--version".toList :: rest) = .error .version ∧ parseClient ("-V".toList :: rest) = .error .version := by
  refine ⟨?_, ?_, ?_, ?_, ?_⟩ <;> rfl

end Ruroco
