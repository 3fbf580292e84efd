import Verif.Props.Renamed4
import Verif.Props.Accepts

/-!
# C134: renamed groups and fields, the whole validation
-/

namespace Punx
open Spec

variable {env : Env} {mgr : Manager} {mins : Dict (Str × Str) Int} {Free : Str → Prop}
  {f f' : H5File} {items items' : List Item}

/-! ## values -/

theorem samePointer_text {C : Str → Str → Prop} {v v' : Val} (h : SamePointer env C v v')
    (k : ∃ s, TextOf env v s) : ∃ s, TextOf env v' s := by
  rcases h with ⟨rfl, h⟩ | ⟨s, s', h1, h2, _⟩
  · exact k
  · exact ⟨s', h2⟩

theorem Spec.ReAttr.text {n n' : Node} {k : Str} {v v' : Val} (h : ReAttr env Free f f' n n' k v v')
    (hk : k ≠ s%"axes") (w : ∃ s, TextOf env v s) : ∃ s, TextOf env v' s := by
  by_cases h1 : k = s%"target"
  · exact samePointer_text (h.target h1) w
  by_cases h2 : k = s%"default"
  · exact samePointer_text (h.default h2) w
  by_cases h3 : k = s%"signal"
  · exact samePointer_text (h.signal h3) w
  · exact h.other (by simp [hk, h1, h2, h3]) ▸ w

theorem classReadable_axes {v : Val} {names : List Str} (h : AxesOf env v names) :
    classReadable env (some v) := by
  rcases h with ⟨s, hs, _⟩ | ⟨_, rfl⟩ | ⟨bs, rfl, _, hm⟩ | rfl | ⟨rfl, _⟩
  · exact classReadable_text hs
  · trivial
  · exact classReadable_array (.inr ⟨bs, rfl, hm⟩)
  · trivial
  · trivial

theorem Spec.ReAttr.classReadable {n n' : Node} {k : Str} {v v' : Val}
    (h : ReAttr env Free f f' n n' k v v') (w : classReadable env (some v)) :
    Spec.classReadable env (some v') := by
  have key : ∀ {C}, SamePointer env C v v' → Spec.classReadable env (some v') := by
    rintro C (⟨rfl, _⟩ | ⟨s, s', h1, h2, _⟩)
    · exact w
    · exact classReadable_text h2
  by_cases h1 : k = s%"target"
  · exact key (h.target h1)
  by_cases h2 : k = s%"default"
  · exact key (h.default h2)
  by_cases h3 : k = s%"signal"
  · exact key (h.signal h3)
  by_cases h4 : k = s%"axes"
  · rcases h.axes h4 with ⟨rfl, _⟩ | ⟨_, _, _, h, _⟩
    · exact w
    · exact classReadable_axes h
  · exact h.other (by simp [h1, h2, h3, h4]) ▸ w

theorem re_targetReadable {n n' : Node} {a a' : List (Str × Val)}
    (h : ReAttrs env Free f f' n n' a a') (w : targetReadable env (a.lookup s%"target")) :
    targetReadable env (a'.lookup s%"target") := by
  have := reAttrs_lookup h s%"target"
  generalize a.lookup s%"target" = o at *
  generalize a'.lookup s%"target" = o' at *
  cases this with
  | none => trivial
  | some r =>
    rcases r.target rfl with ⟨rfl, _⟩ | ⟨s, s', h1, h2, _⟩
    · exact w
    · exact targetReadable_text h2

theorem re_classReadable {n n' : Node} {a a' : List (Str × Val)}
    (h : ReAttrs env Free f f' n n' a a') (w : classReadable env (a.lookup s%"NX_class")) :
    classReadable env (a'.lookup s%"NX_class") := by
  rwa [← reAttrs_other h (by decide)]

/-! ## the tree -/

mutual
theorem intact_re {n n' : Node} : ReNode env Free f f' n n' → Intact n → Intact n'
  | .dataset _, _ => by simp only [Intact]
  | .datatype _, _ => by simp only [Intact]
  | .group _ hk, w => by
    rw [Intact] at w ⊢
    exact intactKids_re hk w
theorem intactKids_re {ks ks' : Kids} : ReKids env Free f f' ks ks' → IntactKids ks → IntactKids ks'
  | .nil, w => w
  | .cons _ _ _ hn hr, w => by
    rw [IntactKids] at w ⊢
    exact ⟨intact_re hn w.1, intactKids_re hr w.2⟩
  | .broken _, w => by
    rw [IntactKids] at w
    exact w.elim
end

mutual
theorem allNodes_re {P : Node → Prop} (hP : ∀ n n', ReNode env Free f f' n n' → P n → P n')
    {n n' : Node} : ReNode env Free f f' n n' → AllNodes P n → AllNodes P n'
  | .dataset ha, w => by
    rw [AllNodes] at w ⊢
    exact hP _ _ (.dataset ha) w
  | .datatype ha, w => by
    rw [AllNodes] at w ⊢
    exact hP _ _ (.datatype ha) w
  | .group ha hk, w => by
    rw [AllNodes] at w ⊢
    exact ⟨hP _ _ (.group ha hk) w.1, allKids_re hP hk w.2⟩
theorem allKids_re {P : Node → Prop} (hP : ∀ n n', ReNode env Free f f' n n' → P n → P n')
    {ks ks' : Kids} : ReKids env Free f f' ks ks' → AllKids P ks → AllKids P ks'
  | .nil, w => w
  | .cons _ _ _ hn hr, w => by
    rw [AllKids] at w ⊢
    exact ⟨allNodes_re hP hn w.1, allKids_re hP hr w.2⟩
  | .broken hr, w => by
    rw [AllKids] at w ⊢
    exact allKids_re hP hr w
end

mutual
theorem classesReadable_re {n n' : Node} : ReNode env Free f f' n n' → ∀ {p : Place},
    ClassesReadable env p n → ClassesReadable env p n'
  | .dataset _, p, _ => by simp only [ClassesReadable]
  | .datatype _, p, _ => by simp only [ClassesReadable]
  | .group ha hk, p, w => by
    rw [ClassesReadable] at w ⊢
    rw [← below_congr (reAttrs_class ha)]
    exact ⟨fun e => re_classReadable ha (w.1 e), classesReadableKids_re hk w.2⟩
theorem classesReadableKids_re {ks ks' : Kids} : ReKids env Free f f' ks ks' → ∀ {p : Place},
    ClassesReadableKids env p ks → ClassesReadableKids env p ks'
  | .nil, p, w => w
  | .cons _ _ _ hn hr, p, w => by
    rw [ClassesReadableKids] at w ⊢
    exact ⟨classesReadable_re hn w.1, classesReadableKids_re hr w.2⟩
  | .broken hr, p, w => by
    rw [ClassesReadableKids] at w ⊢
    exact classesReadableKids_re hr w
end

theorem nodeTargetOk_re {n n' : Node} (h : ReNode env Free f f' n n') (w : NodeTargetOk env n) :
    NodeTargetOk env n' := by
  cases h with
  | dataset ha => exact re_targetReadable ha w
  | datatype => exact w
  | group ha _ => exact re_targetReadable ha w

theorem nodeClassOk_re {n n' : Node} (h : ReNode env Free f f' n n') (w : NodeClassOk env n) :
    NodeClassOk env n' := by
  cases h with
  | dataset => exact w
  | datatype => exact w
  | group ha _ => exact re_classReadable ha w

theorem fileReadable_re (h : Renamed env Free f f') (w : FileReadable env f) :
    FileReadable env f' :=
  ⟨intactKids_re h.kids w.intact, re_targetReadable h.attrs w.rootTarget,
    allKids_re (fun _ _ => nodeTargetOk_re) h.kids w.targets,
    classesReadableKids_re h.kids w.classes⟩

/-! ## checks -/

theorem RePair.attrCheckable (S : RePair env mgr Free f f') {o o' : H5Obj} (ho : RObj f f' o o')
    {n n' : Node} (hp : SamePlace f f' n n') (ow : Owner f o n) {k : Str}
    {v v' : Val} (hv : ReAttr env Free f f' n n' k v v')
    (w : AttrCheckable env o k v) : AttrCheckable env o' k v' := by
  refine ⟨fun h => hv.text ?_ (w.text h), fun e h => ?_,
    fun e h => hv.text (by rw [e]; decide) (w.groupSignal e ?_),
    fun e => hv.classReadable (w.otherSignal e), fun e => ?_⟩
  · rintro rfl
    revert h
    decide
  · obtain ⟨n, a, d, e'⟩ := h
    obtain ⟨n', a', e''⟩ := ho.symm.dataset S.symm e'
    rw [← hv.mark e (.inl (by rw [← ow.node e'']; nofun))]
    exact w.fieldSignal e ⟨n', a', d, e''⟩
  · obtain ⟨n, a, ks, e'⟩ := h
    obtain ⟨g, e'', hg⟩ := ho.symm.toNode e'
    have hr := (S.symm.node hg).re
    cases hr with
    | group => exact ⟨_, _, _, e''⟩
  · obtain ⟨names, h1, h2⟩ := w.axes e
    rcases hv.axes e with ⟨rfl, hno⟩ | ⟨ns, ns', t1, t2, hm⟩
    · exact absurd h1 (hno _)
    obtain rfl := axesOf_unique t1 h1
    refine ⟨ns', t2, h2.imp (fun h => ?_) fun ⟨⟨g, hg⟩, h⟩ => ?_⟩
    · subst h
      cases hm
      rfl
    · obtain ⟨g', hg', _⟩ := ho.group S hg
      refine ⟨⟨g', hg'⟩, fun h' => ?_⟩
      obtain ⟨s, hs, hns⟩ := forall₂_mem' hm h'
      rw [hns.empty (S.node hp).re] at hs
      exact h hs

theorem ReItems.namesCheckable (S : ReItems env mgr Free f f' items items')
    (w : NamesCheckable env items) : NamesCheckable env items' := by
  intro y hy hc attrs ha ka hka
  obtain ⟨x, hx, hl⟩ := S.flip.mem hy
  obtain ⟨b, n, n', hb, hp, hab, _, ow'⟩ := hl.core.obj.attrs S.symm ha
  obtain ⟨v', h1, h2⟩ := reAttrs_mem hab (k := ka.1) (v := ka.2) hka
  exact S.attrCheckable hl.core.obj.symm hp.symm ow' h2.symm (w x hx (hl.outside hc) b hb _ h1)

theorem ReItems.classesMatched (S : ReItems env mgr Free f f' items items')
    (w : ClassesMatched mgr items) : ClassesMatched mgr items' := by
  intro y hy hc attrs ha ka hka hcl
  obtain ⟨x, hx, hl⟩ := S.flip.mem hy
  obtain ⟨b, n, n', hb, _, hab, _, _⟩ := hl.core.obj.attrs S.symm ha
  obtain ⟨v', h1, h2⟩ := reAttrs_mem hab (k := ka.1) (v := ka.2) hka
  exact w x hx (hl.outside hc) b hb _ h1 hcl

theorem groupCheckable_re {n n' : Node} {a a' : List (Str × Val)}
    (h : ReAttrs env Free f f' n n' a a') {cp : Str} {d : ClassDef}
    (he : ∀ spec, Dict.get? d.attrs s%"axes" = some spec → spec.enums = [])
    (w : GroupCheckable env cp a d) : GroupCheckable env cp a' d := by
  have key : ∀ ka ∈ a', ∃ v, (ka.1, v) ∈ a ∧ ReAttr env Free f f' n n' ka.1 v ka.2 :=
    fun ka hka => by
      obtain ⟨v, h1, h2⟩ := reAttrs_mem (reAttrs_symm h) (k := ka.1) (v := ka.2) hka
      exact ⟨v, h1, h2.symm⟩
  refine ⟨w.single, fun ka hka => ?_, fun ka hka spec hs hp => ?_, fun ka hka e => ?_, w.occurs⟩ <;>
    obtain ⟨v, h1, h2⟩ := key ka hka
  · exact h2.classReadable (w.decode _ h1)
  · refine h2.text (fun e => ?_) (w.text _ h1 spec hs hp)
    rcases hp with hp | hp
    · exact hp (he _ (e ▸ hs))
    · rw [e] at hp
      revert hp
      rw [PointsInside]
      exact nofun
  · exact w.target (ka.1, v) h1 e

theorem ReItems.groupsCheckable (S : ReItems env mgr Free f f' items items')
    (w : GroupsCheckable env mgr.classes items) : GroupsCheckable env mgr.classes items' := by
  intro y hy g hg hc
  obtain ⟨x, hx, hl⟩ := S.flip.mem hy
  obtain ⟨g', hg', hn⟩ := hl.core.obj.group S.symm hg
  obtain ⟨h1, h2⟩ := w x hx g' hg' (hl.outside hc)
  have hcp : y.classpath = x.classpath := hl.groupPath hg
  refine ⟨fun p hp => ?_, fun c d hcl hd => ?_⟩
  · obtain ⟨p', hp', hlp⟩ := parent_re hl.ancestors hp
    exact fun k => h1 p' hp' (hlp.classpath.slash k)
  · have ha := re_attrs (S.symm.node hn).re
    rw [groupClass_re ha, hcp] at hcl
    rw [hcp]
    exact groupCheckable_re (reAttrs_symm ha)
      (fun spec hs => S.free.enums _ _ hd _ _ hs (by simp)) (h2 c d hcl hd)

theorem RePair.fieldCheckable (S : RePair env mgr Free f f') {g g' : Node}
    (hg : SamePlace f f' g g') {fld : Str × FieldSpec} (hf : ∀ c ∈ split '/' fld.1, ¬ Free c)
    (w : FieldCheckable env mgr f g fld) : FieldCheckable env mgr f' g' fld := by
  have key := S.get_fixed hg hf
  rcases w with ⟨n, h1, h2, h3⟩ | ⟨h1, h2⟩
  · rcases key with ⟨_, h, _⟩ | ⟨h, _⟩ | ⟨m, m', e1, h1', hp⟩
    · rw [h] at h1; cases h1
    · rw [h] at h1; cases h1
    · rw [e1] at h1
      cases h1
      have hn := (S.node hp).re
      refine .inl ⟨m', h1', ⟨h2.1.imp
        (fun e => (S.addr_iff (S.spot hp).addr S.spot_root.addr).1 e) (nodeClassOk_re hn),
        nodeTargetOk_re hn h2.2⟩, fun he => ?_⟩
      obtain ⟨⟨m, a, d, rfl, s, hs⟩, h4, h5⟩ := h3 he
      refine ⟨?_, h4, fun k => S.hasOneOf hp (h5 k)⟩
      cases hn with
      | dataset => exact ⟨_, _, _, rfl, s, hs⟩
  · rcases key with ⟨_, h, _⟩ | ⟨_, h⟩ | ⟨m, m', e1, _, _⟩
    · rw [h] at h1; cases h1
    · exact .inr ⟨h, h2⟩
    · rw [e1] at h1; cases h1

theorem ReItems.definitionsCheckable (S : ReItems env mgr Free f f' items items')
    (w : DefinitionsCheckable env mgr f items) : DefinitionsCheckable env mgr f' items' := by
  intro y hy hi
  obtain ⟨x, hx, hl⟩ := S.flip.mem hy
  obtain ⟨p, g, hp, hg, name, h1, h2⟩ := w x hx (S.symm.isDefinition hl hi)
  obtain ⟨p', hp', hlp⟩ := parent_re hl.symm.ancestors hp
  obtain ⟨g', hg', hn⟩ := hlp.obj.group S.toRePair hg
  refine ⟨p', g', hp', hg', name, S.declares hn h1, fun ad had => ?_⟩
  obtain ⟨gname, entry, more, e, h3⟩ := h2 ad had
  exact ⟨gname, entry, more, e, fun fld hf =>
    S.fieldCheckable hn (S.free.fields _ _ _ _ _ had e fld hf) (h3 fld hf)⟩

theorem RePair.pointer (S : RePair env mgr Free f f') {x y : Item} (h : RItem Free f f' x y)
    {k : Str} (hk : k ≠ s%"axes") (w : Pointer env x k) : Pointer env y k := by
  obtain ⟨attrs, h1, h2⟩ := w
  obtain ⟨b, n, n', h3, _, h4, _, _⟩ := h.core.obj.attrs S h1
  refine ⟨b, h3, fun v' e => ?_⟩
  obtain ⟨v, e', r⟩ := rel_some (reAttrs_lookup (reAttrs_symm h4) k) e
  obtain ⟨hs, g, hg⟩ := h2 _ e'
  obtain ⟨g', hg', _⟩ := h.core.obj.group S hg
  exact ⟨r.symm.text hk hs, g', hg'⟩

theorem ReItems.signalCheckable (S : ReItems env mgr Free f f' items items') {x y : Item}
    (h : RItem Free f f' x y) (w : SignalCheckable env f items x) :
    SignalCheckable env f' items' y := by
  obtain ⟨D, E, R, t, h1, h2, h3, h4, h5, h6⟩ := w
  obtain ⟨D', E', R', h7, lD, lE, lR⟩ := S.inGroups h h1
  obtain ⟨t', h8, ht⟩ := S.names lD (.inl rfl) h5
  refine ⟨D', E', R', t', h7, S.pointer lR (by decide) h2, S.pointer lE (by decide) h3,
    S.pointer lD (by decide) h4, h8, fun hp => ?_⟩
  obtain ⟨T, hT⟩ := h6 (S.flip.pointsTo lD.symm (.inl rfl) hp ht.symm.addr)
  obtain ⟨T', hT', _⟩ := S.itemAt ht hT
  exact ⟨T', hT'⟩

theorem ReItems.plotCheckable (S : ReItems env mgr Free f f' items items')
    {classes : Dict Str ClassDef} (w : PlotCheckable env f classes items) :
    PlotCheckable env f' classes items' := by
  refine ⟨fun before y after e hb => ?_, fun h1 h2 => ?_⟩
  · obtain ⟨b', x, c', e', hl, hb', _⟩ := split_re S.flip.dataSignals e
    refine S.signalCheckable hl.symm (w.1 b' x c' e' fun i hi k => ?_)
    obtain ⟨j, hj, r⟩ := forall₂_mem (rItems_symm hb') hi
    exact hb j hj (S.signalMissing r k)
  · exact w.2 (fun k => h1 (S.attributePlot k)) (fun k => h2 (S.signalPlot k))

/-! ## the whole validation -/

theorem RePair.validatable (S : RePair env mgr Free f f') (w : Validatable env mgr f) :
    Validatable env mgr f' := by
  have T := ReItems.of S
  exact ⟨fileReadable_re S.ren w.readable, T.namesCheckable w.names, T.classesMatched w.classes,
    T.groupsCheckable w.groups, T.definitionsCheckable w.definitions, T.plotCheckable w.plot⟩

theorem RePair.accepted (S : RePair env mgr Free f f') (w : Accepted env mgr mins f) :
    Accepted env mgr mins f' :=
  ⟨S.validatable w.valid, fun _ _ h => by
    obtain ⟨a, _, k⟩ := (ReItems.of S).flip.fault h
    exact w.clean _ _ k⟩

/-- C134: if two files differ in the names of groups and fields (that mean nothing to the definitions)
and in the paths that mention them, the validation of one completes if and only if that of the other
does. -/
theorem renamed_completes_iff (h : Renamed env Free f f') (hf : Meaningless env mgr Free)
    (hw : WellNamedFile f) (hw' : WellNamedFile f') :
    (validateOpen env mgr mins f).res = .ok () ↔ (validateOpen env mgr mins f').res = .ok () := by
  have S : RePair env mgr Free f f' := ⟨h, hw, hw', hf⟩
  rw [validation_completes_iff hw, validation_completes_iff hw']
  exact ⟨S.validatable, S.symm.validatable⟩

/-- C134: the ERROR findings on such files correspond: each one on the first file is at a place of
the first file that corresponds to a place of the second. -/
theorem renamed_errors_placed (hdig : env.isdigit s%"1" = true)
    (hnd : ∀ d, Dict.get? mgr.classes s%"NXentry" = some d → (Dict.keys d.groups).Nodup)
    (h : Renamed env Free f f') (hf : Meaningless env mgr Free)
    (hw : WellNamedFile f) (hw' : WellNamedFile f')
    (hc : (validateOpen env mgr mins f).res = .ok ()) :
    ∀ x ∈ findings (validateOpen env mgr mins f).log, x.status = .error →
      ∃ a', Option.Rel (SameAddress Free f f') x.addr a' := by
  intro x hx he
  have S : RePair env mgr Free f f' := ⟨h, hw, hw', hf⟩
  obtain ⟨a', hr, _⟩ := (ReItems.of S).fault
    ((error_iff hdig hw hnd hc x.addr x.test).1 ⟨x, hx, rfl, rfl, he⟩)
  exact ⟨a', hr⟩

/-- C134: a test reports an ERROR at a place of the first file if and only if it reports an ERROR at
the corresponding place of the second file. -/
theorem renamed_errors_iff (hdig : env.isdigit s%"1" = true)
    (hnd : ∀ d, Dict.get? mgr.classes s%"NXentry" = some d → (Dict.keys d.groups).Nodup)
    (h : Renamed env Free f f') (hf : Meaningless env mgr Free)
    (hw : WellNamedFile f) (hw' : WellNamedFile f')
    (hc : (validateOpen env mgr mins f).res = .ok ())
    {a a' : Option Str} (ha : Option.Rel (SameAddress Free f f') a a') (t : Str) :
    (∃ x ∈ findings (validateOpen env mgr mins f).log,
      x.addr = a ∧ x.test = t ∧ x.status = .error) ↔
    ∃ x ∈ findings (validateOpen env mgr mins f').log,
      x.addr = a' ∧ x.test = t ∧ x.status = .error := by
  have S : RePair env mgr Free f f' := ⟨h, hw, hw', hf⟩
  have hc' := (renamed_completes_iff h hf hw hw').1 hc
  rw [error_iff hdig hw hnd hc, error_iff hdig hw' hnd hc']
  constructor
  · intro k
    obtain ⟨b, hb, w⟩ := (ReItems.of S).fault k
    rwa [(ReItems.addr_rel S ha hb).1 rfl]
  · intro k
    obtain ⟨b, hb, w⟩ := (ReItems.of S).flip.fault k
    rwa [(ReItems.addr_rel S.symm (rel_symm (fun _ _ => SameAddress.symm) ha) hb).1 rfl]

/-- C134: a file is validated to the end without an ERROR if and only if a file is that differs in
the names of groups and fields (that mean nothing to the definitions) and in the paths that mention
them. -/
theorem renamed_accepted_iff (hdig : env.isdigit s%"1" = true)
    (hnd : ∀ d, Dict.get? mgr.classes s%"NXentry" = some d → (Dict.keys d.groups).Nodup)
    (h : Renamed env Free f f') (hf : Meaningless env mgr Free)
    (hw : WellNamedFile f) (hw' : WellNamedFile f') :
    ((validateOpen env mgr mins f).res = .ok () ∧
      ∀ x ∈ findings (validateOpen env mgr mins f).log, x.status ≠ .error) ↔
    ((validateOpen env mgr mins f').res = .ok () ∧
      ∀ x ∈ findings (validateOpen env mgr mins f').log, x.status ≠ .error) := by
  have S : RePair env mgr Free f f' := ⟨h, hw, hw', hf⟩
  rw [← accepted_iff hdig hw hnd, ← accepted_iff hdig hw' hnd]
  exact ⟨S.accepted, S.symm.accepted⟩

/-- C134: `punx validate` passes both files or none, with the same options and definitions. -/
theorem command_renamed {lib : Lib} {pattern : Str → Pat} {w : Disks} {files files' : Str → FileState}
    {upper : Char → Str} {abspath : Str → Str} {sets : Dict Str FileSet} {a : ValidateArgs}
    (hs : allFileSets w.source w.user = .ok sets)
    (hw : ∀ kv ∈ sets, WellDescribed kv.2) (hd : SoundSet w sets a) (ha : PlainAscii a.report)
    (hdig : env.isdigit s%"1" = true) (hn : WellNamedFile f) (hn' : WellNamedFile f')
    (hf : files a.infile = .hdf5 f) (hf' : files' a.infile = .hdf5 f') (hr : Renamed env Free f f')
    (hm : ∀ mgr, CommandReaches lib pattern w files sets a mgr f → Meaningless env mgr Free) :
    Passes (funcValidate (commandWorld lib pattern w env files upper abspath) a) ↔
      Passes (funcValidate (commandWorld lib pattern w env files' upper abspath) a) := by
  rw [command_passes_iff hs hw hd ha hdig (fun file e => by rw [hf] at e; cases e; exact hn),
    command_passes_iff hs hw hd ha hdig (fun file e => by rw [hf'] at e; cases e; exact hn')]
  constructor
  · rintro ⟨mgr, file, hR, hA⟩
    obtain rfl := reaches_file hR hf
    exact ⟨mgr, f', reaches_other hR hf', RePair.accepted ⟨hr, hn, hn', hm mgr hR⟩ hA⟩
  · rintro ⟨mgr, file, hR, hA⟩
    obtain rfl := reaches_file hR hf'
    have hR' := reaches_other hR hf
    exact ⟨mgr, f, hR', (RePair.symm ⟨hr, hn, hn', hm mgr hR'⟩).accepted hA⟩

end Punx
