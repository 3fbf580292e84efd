import Verif.Props.Comply
import Verif.Props.Entry
import Verif.Spec.Agree
import Verif.Props.H5TreeAttrs

/-!
# C146: the two commands on what a NeXus file is
-/

namespace Punx
open Spec

variable {env : Env} {mgr : Manager} {f : H5File}

theorem classesReadable_mem {l n : Str} {a : List (Str × Val)} {ks : Kids} : (bs : Kids) →
    ClassesReadableKids env .nexus bs → (l, some (Node.group n a ks)) ∈ bs.toList →
    classReadable env (a.lookup s%"NX_class")
  | .nil, _, h => by simp [Kids.toList] at h
  | .cons l' k m rest, w, h => by
    rw [ClassesReadableKids] at w
    rw [Kids.toList, List.mem_cons] at h
    rcases h with h | h
    · cases h
      have w := w.1
      rw [ClassesReadable] at w
      exact w.1 rfl
    · exact classesReadable_mem rest w.2 h
  | .broken l' k rest, w, h => by
    rw [ClassesReadableKids] at w
    rw [Kids.toList, List.mem_cons] at h
    rcases h with h | h
    · cases h
    · exact classesReadable_mem rest w h

/-- A group of class NXentry is one for both commands, unless its class is an array. -/
theorem groupOf_iff {n : Str} {a : List (Str × Val)} {ks : Kids}
    (hs : ∀ v, a.lookup s%"NX_class" = some v → SingleValue v) :
    GroupOf env s%"NXentry" (.group n a ks) ↔ nxClassOf env a = some s%"NXentry" := by
  constructor
  · rintro ⟨_, _, _, v, e, hv, ht⟩
    cases e
    have hs := hs v hv
    rcases ht with (rfl | ⟨b, rfl, hb⟩) | ⟨xs, rfl⟩ | ⟨b, xs, rfl, _⟩
    · simp [nxClassOf, hv]
    · simp [nxClassOf, hv, hb]
    · exact absurd hs (by simp [SingleValue])
    · exact absurd hs (by simp [SingleValue])
  · intro h
    cases hv : a.lookup s%"NX_class" with
    | none => simp [nxClassOf, hv] at h
    | some v =>
      refine ⟨_, _, _, v, rfl, hv, .inl ?_⟩
      cases v with
      | str c =>
        simp only [nxClassOf, hv] at h
        split at h
        · cases h; exact .inl rfl
        · cases h
      | bytes b =>
        simp only [nxClassOf, hv] at h
        split at h
        · next c hc =>
          split at h
          · cases h; exact .inr ⟨b, rfl, hc⟩
          · cases h
        · cases h
      | _ => simp [nxClassOf, hv] at h

/-- **C146**: if the file can be catalogued and no class of a member of the root is an array, the file is
reported to be a NeXus file exactly if it has an NXentry group in its root for the validation.  Missing
for the full statement: classes that are arrays, for which it is violated. -/
theorem nexus_agree_partial (hr : FileReadable env f) (hs : SingleClasses f) :
    ∃ b, isNeXusFile env (.hdf5 f) = .ok (some b) ∧ (b = true ↔ TopEntry env f) := by
  obtain ⟨b, hb, h⟩ := isNeXusFile_readable env f (by
    rintro l m hm ⟨n, a, ks, v, rfl, hv, h⟩
    have hsv := hs l n a ks v hm hv
    have hc := classesReadable_mem f.kids hr.classes hm
    rw [hv] at hc
    rcases h with (rfl | rfl | rfl) | ⟨b, rfl, hb⟩ | ⟨b, xs, rfl, hb⟩
    · exact absurd hsv (by simp [SingleValue])
    · exact absurd hsv (by simp [SingleValue])
    · exact absurd hsv (by simp [SingleValue])
    · simp [classReadable, hb] at hc
    · exact absurd hsv (by simp [SingleValue]))
  refine ⟨b, hb, h.trans ⟨?_, ?_⟩⟩
  · rintro ⟨l, m, hm, hg⟩
    have hg' := hg
    obtain ⟨n, a, ks, _, rfl, _⟩ := hg'
    exact ⟨l, n, a, ks, hm, (groupOf_iff (fun v hv => hs l n a ks v hm hv)).1 hg⟩
  · rintro ⟨l, n, a, ks, hm, hc⟩
    exact ⟨l, _, hm, (groupOf_iff (fun v hv => hs l n a ks v hm hv)).2 hc⟩

theorem classText_shape {attrs : List (Str × Val)} {cls : Str} (h : nxClassText env attrs = .ok cls) :
    cls = [] ∨ ∃ c, cls = ':' :: c := by
  unfold nxClassText at h
  simp only at h
  split at h
  · cases h; exact .inl rfl
  · split at h
    · cases h; exact .inr ⟨_, rfl⟩
    · cases h; exact .inl rfl
  · split at h
    · split at h <;> cases h
      exact .inr ⟨_, rfl⟩
    · cases h
  · split at h <;> cases h
    exact .inr ⟨_, rfl⟩
  · split at h <;> cases h
    exact .inr ⟨_, rfl⟩
  · cases h

open Classical in
/-- **C146**: the first line of the tree report says so, before the class of the root if it has one. -/
theorem tree_title_partial {shown : Int} {sa : Bool} {fname : Str} {ts : List Str}
    (hr : FileReadable env f) (hs : SingleClasses f)
    (h : treeReport env shown sa fname (.hdf5 f) = .ok (some ts)) :
    ∃ cls rest, (cls = [] ∨ ∃ c, cls = ':' :: c) ∧
      ts = (fname ++ (if TopEntry env f then s%" : NeXus data file" else []) ++ cls) :: rest := by
  obtain ⟨b, hb, hiff⟩ := nexus_agree_partial hr hs
  obtain ⟨f', b', ls, e1, e2, e3, rfl⟩ := treeReport_ok.1 h
  cases e1
  rw [hb] at e2
  cases e2
  simp only [renderFile, renderHead, bind, Except.bind, Option.getD_some] at e3
  cases h1 : nxClassText env f.attrs with
  | error e => simp [h1] at e3
  | ok cls =>
    refine ⟨cls, ?_⟩
    simp only [h1] at e3
    split at e3
    · cases e3
    · next x hx =>
      split at hx
      · cases hx
      · cases hx
        split at e3
        · cases e3
        · cases e3
          rename_i v1 _ _ v2 _
          refine ⟨(v1 ++ v2).map TLine.text, classText_shape h1, ?_⟩
          cases b with
          | true => simp [hiff.1 rfl]
          | false =>
            have : ¬ TopEntry env f := fun ht => by simpa using hiff.2 ht
            simp [this]

/-- **C146**: an accepted file whose plot is described by attributes is a NeXus file for `punx tree`. -/
theorem plotted_is_nexus_partial {mins : Dict (Str × Str) Int} (hs : SingleClasses f)
    (hd : ∀ c d, Dict.get? mgr.classes c = some d → '/' ∉ c) (h : Accepted env mgr mins f) {a : Str}
    (ha : AttributePlot env f (contents env f) a) : isNeXusFile env (.hdf5 f) = .ok (some true) := by
  obtain ⟨b, hb, hiff⟩ := nexus_agree_partial h.valid.readable hs
  rw [hb, hiff.2 (attribute_plot_entry (h.plain hd) ha)]

end Punx
