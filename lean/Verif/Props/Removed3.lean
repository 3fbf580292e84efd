import Verif.Props.Removed2
import Verif.Props.Accepts

/-!
# C135: additional content and the command
-/

namespace Punx
open Spec

/-- **C135.** With the same options and definitions `punx validate` passes a file exactly if it
passes the file without additional content that nothing refers to. -/
theorem command_removed {env : Env} {lib : Lib} {pattern : Str → Pat} {w : Disks}
    {files files' : Str → FileState} {upper : Char → Str} {abspath : Str → Str}
    {sets : Dict Str FileSet} {a : ValidateArgs} (hs : allFileSets w.source w.user = .ok sets)
    (hw : ∀ kv ∈ sets, WellDescribed kv.2) (hd : SoundSet w sets a) (ha : PlainAscii a.report)
    (hdig : env.isdigit s%"1" = true) {f : H5File} {X : Node → Bool}
    (hf : files a.infile = .hdf5 f) (hf' : files' a.infile = .hdf5 (trim X f)) (hn : WellNamedFile f)
    (hx : ∀ mgr, CommandReaches lib pattern w files sets a mgr f →
      OnlyExtras env mgr X f ∧ ReferencesKept env mgr X f ∧
        ∀ c d, Dict.get? mgr.classes c = some d → ¬ s%"/" <:+ c) :
    Passes (funcValidate (commandWorld lib pattern w env files upper abspath) a) ↔
      Passes (funcValidate (commandWorld lib pattern w env files' upper abspath) a) := by
  have hn' : WellNamedFile (trim X f) := wellNamedFile_trim hn
  rw [command_passes_iff hs hw hd ha hdig (fun file e => by rw [hf] at e; cases e; exact hn),
    command_passes_iff hs hw hd ha hdig (fun file e => by rw [hf'] at e; cases e; exact hn')]
  have key : ∀ mgr, CommandReaches lib pattern w files sets a mgr f →
      (Accepted env mgr [] f ↔ Accepted env mgr [] (trim X f)) := by
    intro mgr hR
    have hnd : ∀ d, Dict.get? mgr.classes s%"NXentry" = some d → (Dict.keys d.groups).Nodup := by
      obtain ⟨ref, s, e1, e2, e3⟩ := hR.own
      exact fun d hk => own_groups_nodup (hd _ _ e1 e2).2 e3 hk
    obtain ⟨h1, h2, h3⟩ := hx mgr hR
    rw [accepted_iff hdig hn hnd, accepted_iff hdig hn' hnd]
    exact extras_irrelevant hdig hn hnd h3 h1 h2
  constructor
  · rintro ⟨mgr, file, hR, hA⟩
    obtain rfl := reaches_file hR hf
    exact ⟨mgr, _, reaches_other hR hf', (key mgr hR).1 hA⟩
  · rintro ⟨mgr, file, hR, hA⟩
    obtain rfl := reaches_file hR hf'
    exact ⟨mgr, f, reaches_other hR hf, (key mgr (reaches_other hR hf)).2 hA⟩

end Punx
