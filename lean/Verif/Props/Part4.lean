import Verif.Props.Part3
import Verif.Props.Expected2
import Verif.Props.Command

/-!
# C113: a group is judged by its own content

The lines of the report on a group and on everything in it are the same in every file in which the
group is found at the same address and in a container with the same class path.  What else is in the
file does not matter to them.
-/

namespace Punx
open Spec

variable {env : Env} {mgr : Manager} {f f' : H5File} {n : Node}

theorem dataLines_named (items : List Item) {l : Line} : ∀ {xs : List Item},
    l ∈ dataLines env f items xs → s%"NeXus default plot" <+: l.2.1
  | [], h => by cases h
  | it :: rest, h => by
    rw [dataLines] at h
    split at h
    · rw [List.mem_singleton.1 h]
      exact ⟨s%" v3, NXdata@signal", rfl⟩
    · split at h
      · rcases List.mem_cons.1 h with rfl | h
        · exact ⟨s%" v3, NXdata@signal", rfl⟩
        · exact dataLines_named items h
      · exact dataLines_named items h

/-- All lines of the search for a default plot name it. -/
theorem Spec.PlotLine.test {mins : Dict (Str × Str) Int} {items : List Item} {l : Line}
    (h : PlotLine env mgr mins f items l) : s%"NeXus default plot" <+: l.2.1 := by
  cases h with
  | search h =>
    rw [searchLines] at h
    rcases List.mem_append.1 h with h | h
    · rcases List.mem_append.1 h with h | h
      · exact dataLines_named items h
      · rw [niacLines] at h
        split at h
        · cases h
        · split at h
          · rw [List.mem_singleton.1 h]
            exact ⟨s%" v3 NIAC2014", rfl⟩
          · cases h
    · split at h
      · cases h
      · rcases List.mem_append.1 h with h | h
        · obtain ⟨it, _, h⟩ := List.mem_flatMap.1 h
          rw [signalLines] at h
          split at h
          · rw [List.mem_singleton.1 h]
            exact ⟨s%" v2, @signal=1", rfl⟩
          · split at h
            · rw [List.mem_singleton.1 h]
              exact ⟨s%" v2, @signal!=1", rfl⟩
            · cases h
        · obtain ⟨g, _, rfl⟩ := List.mem_map.1 h
          rw [groupLine]
          split
          · exact ⟨s%" v2", rfl⟩
          · exact ⟨s%" v2, multiple @signal=1", rfl⟩
  | verdict h => exact ⟨[], rfl⟩

theorem Spec.OwnLine.notPlot {l : Line} (h : OwnLine n l) : ¬ s%"NeXus default plot" <+: l.2.1 := by
  obtain ⟨a, _, ⟨_, h⟩ | ⟨_, h, _⟩⟩ := h
  · have key : ∀ t ∈ ownTests, ¬ s%"NeXus default plot" <+: t := by decide
    exact key _ h
  · exact h

theorem expected_part {t t' : Site} {mins mins' : Dict (Str × Str) Int}
    (S : CommonPart env f f' n t t') (hs : SimpleNames mgr.classes)
    (hat : '@' ∉ (t.item env).classpath) (hna : AllNodes (NoAbsolute env) n) {l : Line}
    (hl : OwnLine n l) (h : Expected env mgr mins f (contents env f) l) :
    Expected env mgr mins' f' (contents env f') l := by
  rcases h with h | h | h | h | h
  · exact .inl (h.part S hat hl)
  · exact .inr (.inl (h.part S hna hl))
  · exact .inr (.inr (.inl (h.part S hs hna hl)))
  · exact .inr (.inr (.inr (.inl (h.part S hs hl))))
  · exact absurd h.test hl.notPlot

theorem shared_of_stands (hw : WellNamedFile f) (hw' : WellNamedFile f') {cp : Str}
    (h : Stands env f cp n) (h' : Stands env f' cp n) :
    ∃ t t', CommonPart env f f' n t t' ∧ (t.item env).classpath = classpathIn env cp n ∧
      (t'.item env).classpath = classpathIn env cp n := by
  obtain ⟨t, h1, h2, h3⟩ := h.site
  obtain ⟨t', h1', h2', h3'⟩ := h'.site
  refine ⟨t, t', ⟨hw, hw', h1, h1', h2, h2', h3.trans h3'.symm⟩, ?_, ?_⟩
  · rw [Site.item, memberItem, h3, h2]
  · rw [Site.item, memberItem, h3', h2']

/-- **C113.**  The object `n` is in two files, at the same address, in containers with the same
class path.  Both files are validated with the same definitions.  Then the lines on `n` itself and
on everything in it are the same in both reports: their addresses, tests and verdicts do not depend
on anything else in the files.  Excepted are the default plot, which is a matter of the whole file,
and the values of `target` attributes, which are paths from the root. -/
theorem part_judged_alone {mins mins' : Dict (Str × Str) Int} {cp : Str}
    (hdig : env.isdigit s%"1" = true) (hw : WellNamedFile f) (hw' : WellNamedFile f')
    (hnd : ∀ d, Dict.get? mgr.classes s%"NXentry" = some d → (Dict.keys d.groups).Nodup)
    (hs : SimpleNames mgr.classes)
    (h : (validateOpen env mgr mins f).res = .ok ())
    (h' : (validateOpen env mgr mins' f').res = .ok ())
    (hn : Stands env f cp n) (hn' : Stands env f' cp n)
    (hat : '@' ∉ classpathIn env cp n) (hna : AllNodes (NoAbsolute env) n) {l : Line}
    (hl : OwnLine n l) :
    l ∈ report (validateOpen env mgr mins f).log ↔
      l ∈ report (validateOpen env mgr mins' f').log := by
  rw [report_iff hdig hw hnd h, report_iff hdig hw' hnd h']
  obtain ⟨t, t', S, e, e'⟩ := shared_of_stands hw hw' hn hn'
  exact ⟨expected_part S hs (by rw [e]; exact hat) hna hl,
    expected_part S.symm hs (by rw [e']; exact hat) hna hl⟩

/-- Two files that have a member of the root in common, whatever their other members and their own
attributes are: the lines on this member (say, an entry) are the same. -/
theorem entry_judged_alone {mins mins' : Dict (Str × Str) Int} {k k' : Str}
    (hdig : env.isdigit s%"1" = true) (hw : WellNamedFile f) (hw' : WellNamedFile f')
    (hnd : ∀ d, Dict.get? mgr.classes s%"NXentry" = some d → (Dict.keys d.groups).Nodup)
    (hs : SimpleNames mgr.classes)
    (h : (validateOpen env mgr mins f).res = .ok ())
    (h' : (validateOpen env mgr mins' f').res = .ok ())
    (hn : (k, some n) ∈ f.kids.toList) (hn' : (k', some n) ∈ f'.kids.toList)
    (hat : '@' ∉ classpathIn env [] n) (hna : AllNodes (NoAbsolute env) n) {l : Line}
    (hl : OwnLine n l) :
    l ∈ report (validateOpen env mgr mins f).log ↔
      l ∈ report (validateOpen env mgr mins' f').log :=
  part_judged_alone hdig hw hw' hnd hs h h' (.top hn) (.top hn') hat hna hl

end Punx
