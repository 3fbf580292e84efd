import Verif.Props.Expected3
import Verif.Props.Completes5
import Verif.Spec.Wider

/-!
# C127: definitions that allow more accept the same files
-/

namespace Punx
open Spec

variable {env : Env} {m m' : Manager} {mins : Dict (Str × Str) Int} {f : H5File}
  {items : List Item}

/-- The file can be validated, and there is nothing wrong with it. -/
structure Accepted (env : Env) (m : Manager) (mins : Dict (Str × Str) Int) (f : H5File) : Prop where
  valid : Validatable env m f
  clean : ∀ a t, ¬ Fault env m mins f (contents env f) a t

/-- The class of every group of an accepted file is known. -/
theorem Accepted.known (h : Accepted env m mins f) {it : Item} {g : Node} {c : Str}
    (hm : it ∈ contents env f) (hg : it.obj.asGroup = some g)
    (hc : it.classpath ≠ s%"non-NeXus content") (hcl : GroupClass env it.classpath g.attrs c) :
    ∃ d, Dict.get? m.classes c = some d := by
  cases e : Dict.get? m.classes c with
  | some d => exact ⟨d, rfl⟩
  | none => exact absurd (.unknownClass hm hg hc hcl e (.inl rfl)) (h.clean _ _)

theorem Accepted.declared (h : Accepted env m mins f) {g : Node} {name : Str}
    (hd : DeclaredBy env f (contents env f) g name) : ∃ d, Dict.get? m.classes name = some d := by
  cases e : Dict.get? m.classes name with
  | some d => exact ⟨d, rfl⟩
  | none => exact absurd (.unknownDefinition hd e) (h.clean _ _)

theorem wider_get (w : WiderSet env m m') {c : Str} {d d' : ClassDef}
    (h : Dict.get? m.classes c = some d) (h' : Dict.get? m'.classes c = some d') : Wider env d d' := by
  obtain ⟨d'', h1, h2⟩ := w.classes c d h
  rw [h'] at h1
  cases h1
  exact h2

theorem pathOk_wider (w : WiderSet env m m') {done ps : List Str} (h : PathOk env m f done ps) :
    PathOk env m' f done ps := fun pre p post e => ⟨w.names _ (h pre p post e).1, (h pre p post e).2⟩

/-- A declaration has one entry with the fields that are required. -/
theorem Accepted.entry (h : Accepted env m mins f) {g : Node} {name : Str} {d : ClassDef}
    (hd : DeclaredBy env f (contents env f) g name) (e : Dict.get? m.classes name = some d) :
    ∃ gname entry more, d.groups = (gname, entry) :: more := by
  obtain ⟨it, hm, hi, p, hp, hg, hn⟩ := hd
  obtain ⟨p', g', hp', hg', name', hn', h1⟩ := h.valid.definitions it hm hi
  rw [hp] at hp'
  cases hp'
  rw [hg] at hg'
  cases hg'
  rw [declares_unique hn hn'] at e
  obtain ⟨gname, entry, more, h2, _⟩ := h1 d e
  exact ⟨gname, entry, more, h2⟩

theorem Accepted.required (h : Accepted env m mins f) (w : WiderSet env m m') {g : Node}
    {fld' : Str × FieldSpec} (hr : RequiredIn env m' f (contents env f) g fld') :
    ∃ fld, RequiredIn env m f (contents env f) g fld ∧ fld.1 = fld'.1 ∧ WiderField fld.2 fld'.2 := by
  obtain ⟨name, ad', gname', entry', more', hd, e', eg', hf⟩ := hr
  obtain ⟨ad, e⟩ := h.declared hd
  obtain ⟨gname, entry, more, eg⟩ := h.entry hd e
  obtain ⟨fld, h1, h2⟩ := (wider_get w e e').required _ _ _ _ _ _ eg eg' fld' hf
  exact ⟨fld, ⟨name, ad, gname, entry, more, hd, e, eg, h1⟩, h2⟩

/-- The fields that are required are there. -/
theorem Accepted.field (h : Accepted env m mins f) {g : Node} {fld : Str × FieldSpec}
    (hr : RequiredIn env m f (contents env f) g fld) :
    ∃ n, h5get f g fld.1 = .ok (some n) ∧ ItemReadable env n ∧ (fld.2.enums ≠ [] →
      (∃ m a d, n = .dataset m a d ∧ ∃ s, HoldsText env d.value s ∨ HoldsOther env d.value s) ∧
      m.fieldMinOccursIsOne ≠ none ∧ HasOneOf env n fld.2.enums) := by
  have hr' := hr
  obtain ⟨name, ad, gname, entry, more, hd, e, eg, hf⟩ := hr
  obtain ⟨it, hm, hi, p, hp, hg, hn⟩ := hd
  obtain ⟨p', g', hp', hg', name', hn', h1⟩ := h.valid.definitions it hm hi
  rw [hp] at hp'
  cases hp'
  rw [hg] at hg'
  cases hg'
  rw [declares_unique hn hn'] at e
  obtain ⟨gname', entry', more', h2, h3⟩ := h1 ad e
  rw [eg] at h2
  cases h2
  rcases h3 fld hf with ⟨n, k1, k2, k3⟩ | ⟨k1, _⟩
  · refine ⟨n, k1, k2, fun he => ⟨(k3 he).1, (k3 he).2.1, ?_⟩⟩
    by_contra hx
    exact h.clean _ _ (.wrongValue hr' k1 he hx)
  · exact absurd (.missingField hr' k1) (h.clean _ _)

theorem hasOneOf_wider {n : Node} {x x' : FieldSpec} (h : HasOneOf env n x.enums)
    (hs : ∀ e ∈ x.enums, e ∈ x'.enums) : HasOneOf env n x'.enums := by
  obtain ⟨m, a, d, e, t, h1, h2⟩ := h
  exact ⟨m, a, d, e, t, hs _ h1, h2⟩

theorem plotRequired_wider (w : WiderSet env m m') {d : ClassDef} {spec : GroupSpec}
    (hd : Dict.get? m.classes s%"NXentry" = some d) (hs : Dict.get? d.groups s%"data" = some spec)
    (h : PlotRequired env m'.classes mins items) : PlotRequired env m.classes mins items := by
  obtain ⟨d', spec', h1, h2, h3⟩ := h
  obtain ⟨spec'', h4, h5⟩ := w.entry d d' hd h1 spec hs
  rw [h2] at h4
  cases h4
  refine ⟨d, spec, hd, hs, h3.imp (fun ⟨k1, n', k2, k3⟩ => ⟨k1, h5 n' k2 k3⟩) id⟩

theorem Accepted.noFault (h : Accepted env m mins f) (w : WiderSet env m m') (a : Option Str)
    (t : Str) : ¬ Fault env m' mins f (contents env f) a t := by
  intro k
  cases k with
  | objectName h1 h2 h3 h4 h5 => exact h.clean _ _ (.objectName h1 h2 h3 h4 fun k => h5 (w.names _ k))
  | memberName h1 h2 h3 h4 h5 h6 =>
    exact h.clean _ _ (.memberName h1 h2 h3 h4 h5 fun k => h6 (w.names _ k))
  | attrName h1 h2 h3 h4 => exact h.clean _ _ (.attrName h1 h2 h3 fun k => h4 (w.names _ k))
  | className h1 h2 h3 h4 => exact h.clean _ _ (.className h1 h2 h3 fun k => h4 (w.classNames _ k))
  | unusable h1 h2 h3 =>
    refine h.clean _ _ (.unusable h1 h2 fun ⟨d, k1, k2⟩ => h3 ?_)
    obtain ⟨d', k3, k4⟩ := w.classes _ _ k1
    exact ⟨d', k3, k4.usable k2⟩
  | target h1 h2 h3 =>
    exact h.clean _ _ (.target h1 h2 fun ⟨u, k1, k2, k3⟩ => h3 ⟨u, k1, pathOk_wider w k2, k3⟩)
  | signalName h1 h2 h3 h4 => exact h.clean _ _ (.signalName h1 h2 h3 fun k => h4 (w.names _ k))
  | signal h1 h2 h3 h4 h5 => exact h.clean _ _ (.signal h1 h2 h3 h4 h5)
  | axisName h1 h2 h3 h4 => exact h.clean _ _ (.axisName h1 h2 h3 fun k => h4 (w.names _ k))
  | axis h1 h2 h3 h4 h5 => exact h.clean _ _ (.axis h1 h2 h3 h4 h5)
  | unknownClass h1 h2 h3 h4 h5 h6 =>
    obtain ⟨d, e⟩ := h.known h1 h2 h3 h4
    obtain ⟨d', k1, _⟩ := w.classes _ _ e
    rw [h5] at k1
    cases k1
  | application h1 h2 h3 h4 h5 h6 =>
    obtain ⟨d, e⟩ := h.known h1 h2 h3 h4
    exact h.clean _ _ (.application h1 h2 h3 h4 e ((wider_get w e h5).application h6))
  | enumeration h1 h2 h3 h4 h5 h6 h7 h8 h9 =>
    obtain ⟨d, e⟩ := h.known h1 h2 h3 h4
    obtain ⟨s, k1, k2, k3⟩ := (wider_get w e h5).values _ _ h7 h8
    exact h.clean _ _ (.enumeration h1 h2 h3 h4 e h6 k1 k2 fun ⟨t, k4, k5⟩ => h9 ⟨t, k4, k3 _ k5⟩)
  | @pointer it g c k v d' spec h1 h2 h3 h4 h5 h6 h7 h8 h9 =>
    obtain ⟨d, e⟩ := h.known h1 h2 h3 h4
    cases k1 : Dict.get? d.attrs k with
    | some s => exact h.clean _ _ (.pointer h1 h2 h3 h4 e h6 k1 h8 h9)
    | none =>
      have := (wider_get w e h5).pointers k (h8.imp id fun k => .inl k.1) k1
      rw [this] at h7
      cases h7
  | unknownDefinition h1 h2 =>
    obtain ⟨d, e⟩ := h.declared h1
    obtain ⟨d', k1, _⟩ := w.classes _ _ e
    rw [h2] at k1
    cases k1
  | noApplication h1 h2 h3 =>
    obtain ⟨d, e⟩ := h.declared h1
    exact h.clean _ _ (.noApplication h1 e ((wider_get w e h2).base h3))
  | missingField h1 h2 =>
    obtain ⟨fld, k1, k2, _⟩ := h.required w h1
    exact h.clean _ _ (.missingField k1 (k2 ▸ h2))
  | wrongValue h1 h2 h3 h4 =>
    obtain ⟨fld, k1, k2, k3⟩ := h.required w h1
    rcases k3 with k3 | ⟨k3, k4⟩
    · exact h3 k3
    · exact h.clean _ _ (.wrongValue k1 (k2 ▸ h2) k3 fun k => h4 (hasOneOf_wider k k4))
  | plotSignal h1 h2 h3 => exact h.clean _ _ (.plotSignal h1 h2 h3)
  | plotMarks h1 h2 => exact h.clean _ _ (.plotMarks h1 h2)
  | noPlot h1 h2 h3 =>
    obtain ⟨d, spec, k1, k2⟩ := h.valid.plot.2 h1 h2
    exact h.clean _ _ (.noPlot h1 h2 (plotRequired_wider w k1 k2 h3))

theorem Accepted.validatable (h : Accepted env m mins f) (w : WiderSet env m m') :
    Validatable env m' f := by
  have v := h.valid
  refine ⟨v.readable, v.names, ?_, ?_, ?_, ?_⟩
  · intro it hm hc attrs ha ka hk hn
    exact w.pattern (v.classes it hm hc attrs ha ka hk hn)
  · intro it hm g hg hc
    refine ⟨(v.groups it hm g hg hc).1, fun c d' hcl e' => ?_⟩
    obtain ⟨d, e⟩ := h.known hm hg hc hcl
    have k := (v.groups it hm g hg hc).2 c d hcl e
    have kw := wider_get w e e'
    refine ⟨fun x => k.single (kw.only x), k.decode, fun ka hka spec' hs hp => ?_,
      fun ka hka ht => ?_, kw.occurs k.occurs⟩
    · rcases hp with hp | hp
      · obtain ⟨s, k1, k2, _⟩ := kw.values _ _ hs hp
        exact k.text ka hka s k1 (.inl k2)
      · cases k1 : Dict.get? d.attrs ka.1 with
        | some s => exact k.text ka hka s k1 (.inr hp)
        | none =>
          have := kw.pointers ka.1 (hp.imp id fun k => .inl k.1) k1
          rw [this] at hs
          cases hs
    · exact kw.pointers ka.1 (.inr (.inr ht)) (k.target ka hka ht)
  · intro it hm hi
    obtain ⟨p, g, hp, hg, name, hn, h1⟩ := v.definitions it hm hi
    have hd : DeclaredBy env f (contents env f) g name := ⟨it, hm, hi, p, hp, hg, hn⟩
    refine ⟨p, g, hp, hg, name, hn, fun ad' e' => ?_⟩
    obtain ⟨ad, e⟩ := h.declared hd
    obtain ⟨gname, entry, more, eg⟩ := h.entry hd e
    have kw := wider_get w e e'
    obtain ⟨⟨gname', entry'⟩, more', eg'⟩ := List.exists_cons_of_ne_nil
      (kw.groups (by rw [eg]; exact List.cons_ne_nil _ _))
    refine ⟨gname', entry', more', eg', fun fld' hf => ?_⟩
    obtain ⟨fld, k1, k2, k3⟩ := h.required w ⟨name, ad', gname', entry', more', hd, e', eg', hf⟩
    obtain ⟨n, k4, k5, k6⟩ := h.field k1
    refine .inl ⟨n, k2 ▸ k4, k5, fun he => ?_⟩
    rcases k3 with k3 | ⟨k3, k7⟩
    · exact absurd k3 he
    · obtain ⟨x1, x2, x3⟩ := k6 k3
      exact ⟨x1, w.occurs x2, fun _ => hasOneOf_wider x3 k7⟩
  · refine ⟨v.plot.1, fun h1 h2 => ?_⟩
    obtain ⟨d, spec, k1, k2⟩ := v.plot.2 h1 h2
    obtain ⟨d', k3, _⟩ := w.classes _ _ k1
    obtain ⟨spec', k4, _⟩ := w.entry d d' k1 k3 spec k2
    exact ⟨d', spec', k3, k4⟩

/-- **C127.** A file that is validated to the end without an ERROR with some definitions is validated to
the end without an ERROR with all definitions that allow what these allow. -/
theorem wider_accepts (hdig : env.isdigit s%"1" = true) (hw : WellNamedFile f) (w : WiderSet env m m')
    (hnd : ∀ d, Dict.get? m.classes s%"NXentry" = some d → (Dict.keys d.groups).Nodup)
    (hnd' : ∀ d, Dict.get? m'.classes s%"NXentry" = some d → (Dict.keys d.groups).Nodup)
    (h : (validateOpen env m mins f).res = .ok ())
    (hno : ∀ x ∈ findings (validateOpen env m mins f).log, x.status ≠ .error) :
    (validateOpen env m' mins f).res = .ok () ∧
    ∀ x ∈ findings (validateOpen env m' mins f).log, x.status ≠ .error := by
  have ha : Accepted env m mins f :=
    ⟨(validation_completes_iff hw).1 h, (no_error_iff hdig hw hnd h).1 hno⟩
  have h' := (validation_completes_iff (mins := mins) hw).2 (ha.validatable w)
  exact ⟨h', (no_error_iff hdig hw hnd' h').2 (ha.noFault w)⟩

/-! ## more definitions, and other fields of base classes -/

theorem wider_refl (env : Env) (d : ClassDef) : Wider env d d where
  usable := id
  application := id
  base := id
  values := fun _ s h hs => ⟨s, h, hs, fun _ h => h⟩
  pointers := fun _ _ h => h
  only := id
  occurs := id
  groups := id
  required := fun g e more g' e' more' h h' fld hf => by
    rw [h] at h'
    cases h'
    refine ⟨fld, hf, rfl, ?_⟩
    by_cases k : fld.2.enums = []
    · exact .inl k
    · exact .inr ⟨k, fun _ h => h⟩

theorem widerPlot_refl (env : Env) (d : ClassDef) : WiderPlot env d d :=
  fun spec h => ⟨spec, h, fun n h1 h2 => ⟨n, h1, h2⟩⟩

/-- Fields of a base class are only offered. -/
theorem wider_fields (env : Env) (d : ClassDef) (h : d.category = .baseClasses)
    (fs : Dict Str FieldSpec) : Wider env d { d with fields := fs } where
  usable := fun _ => .inl h
  application := id
  base := id
  values := fun _ s h hs => ⟨s, h, hs, fun _ h => h⟩
  pointers := fun _ _ h => h
  only := fun k => by
    have := k.1
    rw [show ({ d with fields := fs } : ClassDef).category = d.category from rfl, h] at this
    cases this
  occurs := id
  groups := id
  required := (wider_refl env d).required

/-- Definitions with further names allow what the definitions allow. -/
theorem more_definitions_set (hi : m.itemPats = m'.itemPats) (hp : m.classPats = m'.classPats)
    (ho : m.fieldMinOccursIsOne = m'.fieldMinOccursIsOne)
    (hc : ∀ c d, Dict.get? m.classes c = some d → Dict.get? m'.classes c = some d) :
    WiderSet env m m' := by
  refine ⟨?_, ?_, ?_, ?_, fun c d e => ⟨d, hc c d e, wider_refl env d⟩, ?_⟩
  · simp only [NameOk, RelaxedBy, hi]
    exact fun _ h => h
  · simp only [ClassNameOk, hp]
    exact fun _ h => h
  · simp only [HasClassPattern, hp]
    exact id
  · rw [ho]
    exact id
  · intro d d' e e'
    rw [hc _ _ e] at e'
    cases e'
    exact widerPlot_refl env d

/-- **C127.** More definitions do no harm: a file that is accepted stays accepted if definitions with
new names are added. -/
theorem more_definitions_accept (hdig : env.isdigit s%"1" = true) (hw : WellNamedFile f)
    (hi : m.itemPats = m'.itemPats) (hp : m.classPats = m'.classPats)
    (ho : m.fieldMinOccursIsOne = m'.fieldMinOccursIsOne)
    (hc : ∀ c d, Dict.get? m.classes c = some d → Dict.get? m'.classes c = some d)
    (hnd : ∀ d, Dict.get? m'.classes s%"NXentry" = some d → (Dict.keys d.groups).Nodup)
    (h : (validateOpen env m mins f).res = .ok ())
    (hno : ∀ x ∈ findings (validateOpen env m mins f).log, x.status ≠ .error) :
    (validateOpen env m' mins f).res = .ok () ∧
    ∀ x ∈ findings (validateOpen env m' mins f).log, x.status ≠ .error :=
  wider_accepts hdig hw (more_definitions_set hi hp ho hc) (fun d e => hnd d (hc _ _ e)) hnd h hno

/-- The same definition, or a base class with other fields. -/
def OtherFields (d d' : ClassDef) : Prop :=
  d' = d ∨ d.category = .baseClasses ∧ ∃ fs, d' = { d with fields := fs }

theorem otherFields_symm {d d' : ClassDef} (h : OtherFields d d') : OtherFields d' d := by
  rcases h with rfl | ⟨h, fs, rfl⟩
  · exact .inl rfl
  · exact .inr ⟨h, d.fields, rfl⟩

theorem otherFields_wider {d d' : ClassDef} (h : OtherFields d d') :
    Wider env d d' ∧ WiderPlot env d d' ∧ d.groups = d'.groups := by
  rcases h with rfl | ⟨h, fs, rfl⟩
  · exact ⟨wider_refl env _, widerPlot_refl env _, rfl⟩
  · exact ⟨wider_fields env d h fs, widerPlot_refl env d, rfl⟩

theorem other_fields_set (hi : m.itemPats = m'.itemPats) (hp : m.classPats = m'.classPats)
    (ho : m.fieldMinOccursIsOne = m'.fieldMinOccursIsOne)
    (hc : ∀ c, Option.Rel OtherFields (Dict.get? m.classes c) (Dict.get? m'.classes c)) :
    WiderSet env m m' := by
  refine ⟨?_, ?_, ?_, ?_, fun c d e => ?_, fun d d' e e' => ?_⟩
  · simp only [NameOk, RelaxedBy, hi]
    exact fun _ h => h
  · simp only [ClassNameOk, hp]
    exact fun _ h => h
  · simp only [HasClassPattern, hp]
    exact id
  · rw [ho]
    exact id
  · have := hc c
    rw [e] at this
    generalize Dict.get? m'.classes c = o at *
    cases this with
    | some r => exact ⟨_, rfl, (otherFields_wider r).1⟩
  · have := hc s%"NXentry"
    rw [e, e'] at this
    cases this with
    | some r => exact (otherFields_wider r).2.1

/-- **C127.** Which fields the base classes have does not matter for whether a file is accepted. -/
theorem base_fields_irrelevant (hdig : env.isdigit s%"1" = true) (hw : WellNamedFile f)
    (hi : m.itemPats = m'.itemPats) (hp : m.classPats = m'.classPats)
    (ho : m.fieldMinOccursIsOne = m'.fieldMinOccursIsOne)
    (hc : ∀ c, Option.Rel OtherFields (Dict.get? m.classes c) (Dict.get? m'.classes c))
    (hnd : ∀ d, Dict.get? m.classes s%"NXentry" = some d → (Dict.keys d.groups).Nodup) :
    ((validateOpen env m mins f).res = .ok () ∧
      ∀ x ∈ findings (validateOpen env m mins f).log, x.status ≠ .error) ↔
    ((validateOpen env m' mins f).res = .ok () ∧
      ∀ x ∈ findings (validateOpen env m' mins f).log, x.status ≠ .error) := by
  have hc' : ∀ c, Option.Rel OtherFields (Dict.get? m'.classes c) (Dict.get? m.classes c) := by
    intro c
    have := hc c
    generalize Dict.get? m.classes c = o at *
    generalize Dict.get? m'.classes c = o' at *
    cases this with
    | some r => exact .some (otherFields_symm r)
    | none => exact .none
  have hnd' : ∀ d, Dict.get? m'.classes s%"NXentry" = some d → (Dict.keys d.groups).Nodup := by
    intro d' e'
    have := hc s%"NXentry"
    rw [e'] at this
    generalize Dict.get? m.classes s%"NXentry" = o at *
    cases this with
    | some r => exact (otherFields_wider (env := env) r).2.2 ▸ hnd _ rfl
  exact ⟨fun ⟨h, k⟩ => wider_accepts hdig hw (other_fields_set hi hp ho hc) hnd hnd' h k,
    fun ⟨h, k⟩ => wider_accepts hdig hw (other_fields_set hi.symm hp.symm ho.symm hc') hnd' hnd h k⟩

end Punx
