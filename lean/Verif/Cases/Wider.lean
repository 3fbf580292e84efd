import Verif.Props.Wider
import Verif.Cases.Expected

/-!
# C127 applied to definitions
-/

namespace Punx
open Spec

/-- The sample definitions with a new class, more fields in NXentry, a new attribute of NXdata, and
a definition NXsas with these fields. -/
def laterMgr (sas : Dict Str FieldSpec) : Manager :=
  { sampleMgr with classes := [
    baseClass s%"NXnote" [(s%"kind", ⟨[s%"a"]⟩)] [] [],
    baseClass s%"NXroot" [(s%"default", ⟨[]⟩), (s%"NX_class", ⟨[s%"NXroot", s%"NXfile"]⟩)]
      [(s%"entry", default)] [],
    baseClass s%"NXentry" [(s%"default", ⟨[]⟩)] [(s%"data", default)]
      [(s%"run", {}), (s%"title", {}), (s%"definition", {})],
    baseClass s%"NXdata" [(s%"signal", ⟨[]⟩), (s%"axes", ⟨[]⟩), (s%"scale", ⟨[]⟩)] [] [],
    baseClass s%"NXcollection" [] [] [],
    (s%"NXsas", ⟨s%"NXsas", .applications, [], [(s%"entry", .mk [] [] sas [])], [], [], []⟩)] }

/-- The field `title` is not required any more, and there are two names. -/
def laterSas : Dict Str FieldSpec := [(s%"definition", { enums := [some s%"NXsas", some s%"NXsas2"] })]

theorem baseClass_wider {env : Env} {t : Str} {a a' : Dict Str AttrSpec} {g : Dict Str GroupSpec}
    {x x' : Dict Str FieldSpec}
    (hv : ∀ k s', Dict.get? a' k = some s' → s'.enums ≠ [] →
      ∃ s, Dict.get? a k = some s ∧ s.enums ≠ [] ∧ ∀ e ∈ s.enums, e ∈ s'.enums)
    (hp : ∀ k, k = s%"signal" ∨ k = s%"default" ∨ k = s%"target" → Dict.get? a k = none →
      Dict.get? a' k = none) :
    Wider env (baseClass t a g x).2 (baseClass t a' g x').2 where
  usable := fun _ => .inl rfl
  application := fun h => by cases h
  base := fun _ => rfl
  values := hv
  pointers := hp
  only := fun h => by cases h.1
  occurs := id
  groups := id
  required := (wider_refl env (baseClass t a g x).2).required

theorem get_cases {α : Type} {c k : Str} {x d : α} {r : Dict Str α}
    (h : Dict.get? ((k, x) :: r) c = some d) : (c = k ∧ d = x) ∨ Dict.get? r c = some d := by
  rw [Dict.get?] at h
  split at h
  · rename_i e
    cases h
    exact .inl ⟨e.symm, rfl⟩
  · exact .inr h

theorem laterMgr_wider : WiderSet sampleEnv sampleMgr (laterMgr laterSas) := by
  refine ⟨fun _ h => h, fun _ h => h, id, id, fun c d h => ?_, fun d d' h h' => ?_⟩
  · have h' : Dict.get? sampleMgr.classes c = some d := h
    rcases get_cases h with ⟨rfl, rfl⟩ | h
    · refine ⟨_, rfl, baseClass_wider (fun k s' h hs => ?_) (fun k hk hn => ?_)⟩
      · rcases get_cases h with ⟨rfl, rfl⟩ | h
        · exact absurd rfl hs
        · rcases get_cases h with ⟨rfl, rfl⟩ | h
          · exact ⟨_, rfl, List.cons_ne_nil _ _, by simp⟩
          · cases h
      · rcases hk with rfl | rfl | rfl
        · rfl
        · cases hn
        · rfl
    · rcases get_cases h with ⟨rfl, rfl⟩ | h
      · exact ⟨_, rfl, wider_fields sampleEnv _ rfl _⟩
      · rcases get_cases h with ⟨rfl, rfl⟩ | h
        · refine ⟨_, rfl, baseClass_wider (fun k s' h hs => ?_) (fun k hk hn => ?_)⟩
          · rcases get_cases h with ⟨rfl, rfl⟩ | h
            · exact absurd rfl hs
            · rcases get_cases h with ⟨rfl, rfl⟩ | h
              · exact absurd rfl hs
              · rcases get_cases h with ⟨rfl, rfl⟩ | h
                · exact absurd rfl hs
                · cases h
          · rcases hk with rfl | rfl | rfl
            · cases hn
            · rfl
            · rfl
        · rcases get_cases h with ⟨rfl, rfl⟩ | h
          · exact ⟨_, rfl, wider_refl sampleEnv _⟩
          · rcases get_cases h with ⟨rfl, rfl⟩ | h
            · refine ⟨_, rfl, ⟨?_, id, id, ?_, ?_, id, ?_, ?_, ?_⟩⟩
              · rintro (h | ⟨h, _⟩) <;> cases h
              · intro k s' h; cases h
              · intros; rfl
              · intro h g hg
                rw [List.mem_singleton] at hg
                subst hg
                exact ⟨0, .inl ⟨rfl, rfl⟩⟩
              · intro _; exact List.cons_ne_nil _ _
              · intro g e more g' e' more' h1 h2 fld hf
                cases h1
                cases h2
                change fld ∈ laterSas at hf
                rw [laterSas, List.mem_singleton] at hf
                subst hf
                exact ⟨_, .tail _ (.head _), rfl, .inr ⟨List.cons_ne_nil _ _, by simp⟩⟩
            · cases h
  · cases h
    cases h'
    exact fun spec h => ⟨spec, h, fun n h1 h2 => ⟨n, h1, h2⟩⟩

theorem laterMgr_entry (sas : Dict Str FieldSpec) :
    ∀ d, Dict.get? (laterMgr sas).classes s%"NXentry" = some d → (Dict.keys d.groups).Nodup :=
  fun d hd => by cases hd; decide

/-- A file that declares NXsas and is accepted. -/
def sasTitled : H5File :=
  entryFile (.cons s%"title" .hard (.dataset s%"/e/title" [] (.ofVal (.str s%"t")))
    (.cons s%"definition" .hard (.dataset s%"/e/definition" [] (.ofVal (.str s%"NXsas"))) .nil))

theorem sasTitled_wellNamed : WellNamedFile sasTitled := by
  simp [WellNamedFile, sasTitled, entryFile, WellNamedKids, WellNamed, Kids.toList]

/-- The hypotheses of C127 hold for the file. -/
theorem wider_case :
    (validateOpen sampleEnv (laterMgr laterSas) [] sasTitled).res = .ok () ∧
    ∀ x ∈ findings (validateOpen sampleEnv (laterMgr laterSas) [] sasTitled).log, x.status ≠ .error :=
  wider_accepts (by rfl) sasTitled_wellNamed laterMgr_wider sampleMgr_entry (laterMgr_entry _) (by rfl)
    (by decide +kernel)

/-- One more field in an application definition can make an accepted file wrong: all fields of the
first group are required. -/
theorem more_fields_reject :
    (∀ x ∈ findings (validateOpen sampleEnv sampleMgr [] sasTitled).log, x.status ≠ .error) ∧
    ∃ x ∈ findings (validateOpen sampleEnv (laterMgr (laterSas ++ [(s%"wavelength", default)])) []
      sasTitled).log, x.status = .error := by
  refine ⟨?_, ?_⟩ <;> decide +kernel

end Punx
