import Verif.Props.Renamed5
import Verif.Cases.Accepts

/-!
# C134 applied to files
-/

namespace Punx
open Spec

/-- A file with an NXentry group `e` and an NXdata group `d` with the fields `x` and `y`.  The
attributes `default` say `pe` and `pd`, the attribute `signal` says `ps`, `axes` lists `pa` and `ps`, and the
attribute `target` says `t`. -/
def labelled (e d x y pe pd ps pa t : Str) : H5File where
  attrs := [(s%"default", .str pe)]
  kids := .cons e .hard (.group ('/' :: e)
      [(s%"NX_class", .str s%"NXentry"), (s%"default", .str pd)]
    (.cons d .hard (.group ('/' :: e ++ '/' :: d)
        [(s%"NX_class", .str s%"NXdata"), (s%"signal", .str ps), (s%"axes", .arrO [pa, ps])]
      (.cons x .hard (.dataset ('/' :: e ++ s%"/" ++ d ++ '/' :: x)
        [(s%"signal", .int 1)] (.ofVal (.int 1)))
      (.cons y .hard (.dataset ('/' :: e ++ s%"/" ++ d ++ '/' :: y)
        [(s%"target", .str t)] (.ofVal (.int 2))) .nil))) .nil))
    .nil

/-- With the customary names. -/
def customary (t : Str) : H5File :=
  labelled s%"entry" s%"data" s%"data" s%"x" s%"entry" s%"data" s%"data" s%"x" t

/-- With other names. -/
def ownNames (t : Str) : H5File :=
  labelled s%"run_7" s%"plot" s%"counts" s%"angle" s%"run_7" s%"plot" s%"counts" s%"angle" t

/-- The names that are exchanged. -/
def exchanged : List Str :=
  [s%"entry", s%"data", s%"x", s%"run_7", s%"plot", s%"counts", s%"angle"]

/-- The names that are exchanged. -/
def Exchanged (l : Str) : Prop := l ∈ exchanged

theorem customary_wellNamed (t : Str) : WellNamedFile (customary t) := by
  simp [WellNamedFile, customary, labelled, WellNamedKids, WellNamed, Kids.toList]

theorem ownNames_wellNamed (t : Str) : WellNamedFile (ownNames t) := by
  simp [WellNamedFile, ownNames, labelled, WellNamedKids, WellNamed, Kids.toList]

theorem label_of {l : Str} (h : (l ≠ [] ∧ l ≠ s%".") ∧ '/' ∉ l ∧ '@' ∉ l) : Label l :=
  ⟨h.1.1, h.1.2, h.2.1, h.2.2⟩

theorem reAttr_same {env : Env} {Free : Str → Prop} {f f' : H5File} {n n' : Node} {k : Str} {v : Val}
    (h : k ∉ [s%"target", s%"default", s%"signal", s%"axes"]) : ReAttr env Free f f' n n' k v v := by
  simp only [List.mem_cons, List.not_mem_nil, or_false, not_or] at h
  exact ⟨fun e => absurd e h.1, fun e => absurd e h.2.1, fun e => absurd e h.2.2.1,
    fun e => absurd e h.2.2.1, fun e => absurd e h.2.2.2, fun _ => rfl⟩

theorem textOf_str {env : Env} {s t : Str} (h : TextOf env (.str s) t) : t = s := by
  rcases h with h | ⟨_, h, _⟩ <;> cases h
  rfl

theorem reAttr_default {env : Env} {Free : Str → Prop} {f f' : H5File} {n n' : Node} {s s' : Str}
    (h : '@' ∉ s ∧ '@' ∉ s') (k : Corr Free n n' (split '/' s) (split '/' s')) :
    ReAttr env Free f f' n n' s%"default" (.str s) (.str s') :=
  ⟨fun e => absurd e (by decide), fun _ => .inr ⟨s, s', .inl rfl, .inl rfl, h, k⟩,
    fun e => absurd e (by decide), fun e => absurd e (by decide), fun e => absurd e (by decide),
    fun e => absurd (by simp) e⟩

theorem reAttr_target {env : Env} {Free : Str → Prop} {f f' : H5File} {n n' : Node} {s s' : Str}
    (h : Moved Free f f' s s') :
    ReAttr env Free f f' n n' s%"target" (.str s) (.str s') :=
  ⟨fun _ => .inr ⟨s, s', .inl rfl, .inl rfl, .inl h⟩, fun e => absurd e (by decide),
    fun e => absurd e (by decide), fun e => absurd e (by decide), fun e => absurd e (by decide),
    fun e => absurd (by simp) e⟩

theorem reAttr_signal {env : Env} {Free : Str → Prop} {f f' : H5File} {n n' : Node} {s s' : Str}
    (hg : (∃ t a ks, n = .group t a ks) ∧ ∃ t a ks, n' = .group t a ks)
    (h : '@' ∉ s ∧ '@' ∉ s') (k : NamesPart Free n n' s s') :
    ReAttr env Free f f' n n' s%"signal" (.str s) (.str s') := by
  refine ⟨fun e => absurd e (by decide), fun e => absurd e (by decide),
    fun _ => .inr ⟨s, s', .inl rfl, .inl rfl, h, k⟩, fun _ w => ?_, fun e => absurd e (by decide),
    fun e => absurd (by simp) e⟩
  obtain ⟨⟨t, a, ks, rfl⟩, t', a', ks', rfl⟩ := hg
  rcases w with w | w <;> exact absurd rfl (w _ _ _)

theorem reAttr_axes {env : Env} {Free : Str → Prop} {f f' : H5File} {n n' : Node} {l l' : List Str}
    (hne : l ≠ []) (k : List.Forall₂ (NamesPart Free n n') l l') :
    ReAttr env Free f f' n n' s%"axes" (.arrO l) (.arrO l') := by
  refine ⟨fun e => absurd e (by decide), fun e => absurd e (by decide), fun e => absurd e (by decide),
    fun e => absurd e (by decide), fun _ => .inr ⟨l, l', .inr (.inl ⟨hne, rfl⟩),
      .inr (.inl ⟨?_, rfl⟩), k⟩, fun e => absurd (by simp) e⟩
  rintro rfl
  cases k
  exact hne rfl

theorem reAttr_mark {env : Env} {Free : Str → Prop} {f f' : H5File} {n n' : Node} {i : Int} :
    ReAttr env Free f f' n n' s%"signal" (.int i) (.int i) := by
  refine ⟨fun e => absurd e (by decide), fun e => absurd e (by decide), fun _ => .inl ⟨rfl, ?_⟩,
    fun _ _ => rfl, fun e => absurd e (by decide), fun _ => rfl⟩
  rintro s (h | ⟨_, h, _⟩) <;> cases h

theorem not_exchanged {l : Str} (h : l ∉ exchanged) : ¬ Exchanged l := h

theorem customary_ownNames {t t' : Str} (h : Moved Exchanged (customary t) (ownNames t') t t') :
    Renamed sampleEnv Exchanged (customary t) (ownNames t') := by
  have m1 : Exchanged s%"entry" ∧ Exchanged s%"run_7" := by simp [Exchanged, exchanged]
  have m2 : Exchanged s%"data" ∧ Exchanged s%"plot" := by simp [Exchanged, exchanged]
  have m3 : Exchanged s%"data" ∧ Exchanged s%"counts" := by simp [Exchanged, exchanged]
  have m4 : Exchanged s%"x" ∧ Exchanged s%"angle" := by simp [Exchanged, exchanged]
  refine ⟨.cons ⟨rfl, reAttr_default (by decide) (.step (i := 0) rfl rfl (.fixed nofun))⟩ .nil,
    .cons (label_of (by decide)) (label_of (by decide)) (.inr m1) (.group
      (.cons ⟨rfl, reAttr_same (by decide)⟩ (.cons ⟨rfl, reAttr_default (by decide)
        (.step (i := 0) rfl rfl (.fixed nofun))⟩ .nil))
      (.cons (label_of (by decide)) (label_of (by decide)) (.inr m2) (.group
        (.cons ⟨rfl, reAttr_same (by decide)⟩ (.cons ⟨rfl, ?_⟩ (.cons ⟨rfl, ?_⟩ .nil)))
        (.cons (label_of (by decide)) (label_of (by decide)) (.inr m3)
          (.dataset (.cons ⟨rfl, reAttr_mark⟩ .nil))
        (.cons (label_of (by decide)) (label_of (by decide)) (.inr m4)
          (.dataset (.cons ⟨rfl, reAttr_target h⟩ .nil)) .nil))) .nil)) .nil⟩
  · exact reAttr_signal ⟨⟨_, _, _, rfl⟩, _, _, _, rfl⟩ (by decide)
      (.inr ⟨_, _, _, _, _, _, 0, _, _, rfl, rfl, rfl, rfl⟩)
  · exact reAttr_axes (by simp) (.cons (.inr ⟨_, _, _, _, _, _, 1, _, _, rfl, rfl, rfl, rfl⟩)
      (.cons (.inr ⟨_, _, _, _, _, _, 0, _, _, rfl, rfl, rfl, rfl⟩) .nil))

/-- The names that are exchanged are not names of required fields, and the values of `target`,
`default`, `signal` and `axes` are not enumerated. -/
def saysNothing (mgr : Manager) : Bool :=
  mgr.classes.all fun x =>
    (match x.2.groups with
      | [] => true
      | g :: _ => g.2.fields.all fun fld => (split '/' fld.1).all fun p =>
          decide (p ∉ exchanged)) &&
    x.2.attrs.all fun a => decide
      (a.1 ∈ [s%"target", s%"default", s%"signal", s%"axes"] → a.2.enums = [])

theorem exchanged_meaningless {mgr : Manager} (h : saysNothing mgr = true) :
    Meaningless sampleEnv mgr Exchanged := by
  have key := fun c d (hc : Dict.get? mgr.classes c = some d) =>
    Bool.and_eq_true_iff.1 (List.all_eq_true.1 h _ (Dict.mem_of_get? hc))
  refine ⟨fun l h => ?_, fun l h => ?_, not_exchanged (by decide), not_exchanged (by decide), ?_, ?_⟩
  · simp only [Exchanged, exchanged, List.mem_cons, List.not_mem_nil, or_false] at h
    rcases h with rfl | rfl | rfl | rfl | rfl | rfl | rfl <;> exact label_of (by decide)
  · simp only [Exchanged, exchanged, List.mem_cons, List.not_mem_nil, or_false] at h
    rcases h with rfl | rfl | rfl | rfl | rfl | rfl | rfl <;> exact strict_nameOk (by decide +kernel)
  · intro c d gname entry more hc e fld hf p hp
    have := (key c d hc).1
    simp only [e] at this
    have := List.all_eq_true.1 (List.all_eq_true.1 this fld hf) p hp
    exact not_exchanged (of_decide_eq_true this)
  · intro c d hc k spec hs hk
    exact of_decide_eq_true (List.all_eq_true.1 (key c d hc).2 (k, spec) (Dict.mem_of_get? hs)) hk

/-- The path to the field `data`. -/
theorem moved_data : Moved Exchanged (customary s%"/entry/data/data") (ownNames s%"/run_7/plot/counts")
    s%"/entry/data/data" s%"/run_7/plot/counts" :=
  ⟨s%"entry/data/data", s%"run_7/plot/counts", rfl, rfl, .step (i := 0) rfl rfl
    (.step (i := 0) rfl rfl (.step (i := 0) rfl rfl (.fixed nofun)))⟩

/-- A path to nowhere. -/
theorem moved_nowhere (t t' : Str) : Moved Exchanged (customary t) (ownNames t')
    s%"/nowhere" s%"/nowhere" := by
  refine ⟨s%"nowhere", s%"nowhere", rfl, rfl, .fixed fun c hc => ?_⟩
  rw [show split '/' s%"nowhere" = [s%"nowhere"] from by decide, List.mem_singleton] at hc
  exact hc ▸ not_exchanged (by decide)

/-- The hypotheses of C134 hold for files with other names of groups and fields; since the first one is accepted,
so is the second. -/
theorem renamed_case :
    (validateOpen sampleEnv sampleMgr [] (ownNames s%"/run_7/plot/counts")).res = .ok () ∧
    ∀ x ∈ findings (validateOpen sampleEnv sampleMgr [] (ownNames s%"/run_7/plot/counts")).log,
      x.status ≠ .error :=
  (renamed_accepted_iff (by rfl) sampleMgr_entry (customary_ownNames moved_data) (exchanged_meaningless (by decide +kernel))
    (customary_wellNamed _) (ownNames_wellNamed _)).1 ⟨by rfl, by decide +kernel⟩

/-- A target that does not exist is an error at `/entry/data/x@target`, hence also at
`/run_7/plot/angle@target`. -/
theorem renamed_error_case :
    ∃ x ∈ findings (validateOpen sampleEnv sampleMgr [] (ownNames s%"/nowhere")).log,
      x.addr = some s%"/run_7/plot/angle@target" ∧ x.test = s%"attribute value" ∧
        x.status = .error := by
  have hp : Spot Exchanged (customary s%"/nowhere") (ownNames s%"/nowhere") s%"/entry/data/x"
      s%"/run_7/plot/angle" :=
    ⟨⟨by decide, by decide⟩, s%"entry/data/x", s%"run_7/plot/angle", rfl, rfl, .step (i := 0) rfl rfl
      (.step (i := 0) rfl rfl (.step (i := 1) rfl rfl (.fixed nofun)))⟩
  refine (renamed_errors_iff (by rfl) sampleMgr_entry (customary_ownNames (moved_nowhere _ _))
    (exchanged_meaningless (by decide +kernel)) (customary_wellNamed _) (ownNames_wellNamed _) (by rfl)
    (.some (hp.attr s%"target")) _).1 ?_
  exact mem_errorsOf.1 (by decide +kernel)

/-- If only the groups and fields get other names, but not the paths to them, the file is no longer
accepted: the `target` does not exist, or `default`, `signal` or `axes` names no member.  And names that
are not valid names are not accepted. -/
theorem other_renamings_reject :
    errorsOf (labelled s%"run_7" s%"data" s%"data" s%"x" s%"run_7" s%"data" s%"data" s%"x"
      s%"/entry/data/data") ≠ [] ∧
    errorsOf (labelled s%"run_7" s%"plot" s%"data" s%"x" s%"entry" s%"data" s%"data" s%"x"
      s%"/run_7/plot/data") ≠ [] ∧
    errorsOf (labelled s%"entry" s%"data" s%"counts" s%"x" s%"entry" s%"data" s%"data" s%"x"
      s%"/entry/data/counts") ≠ [] ∧
    errorsOf (labelled s%"entry" s%"data" s%"data" s%"angle" s%"entry" s%"data" s%"data" s%"x"
      s%"/entry/data/data") ≠ [] ∧
    errorsOf (labelled s%"run 7" s%"plot" s%"data" s%"x" s%"run 7" s%"plot" s%"data" s%"x"
      s%"/run 7/plot/data") ≠ [] := by
  refine ⟨?_, ?_, ?_, ?_, ?_⟩ <;> decide +kernel

theorem accMgr_saysNothing {mgr : Manager} (h : accMgr s%"v1" = .ok mgr) : saysNothing mgr = true := by
  have h5 : (match accMgr s%"v1" with
    | .ok m => saysNothing m
    | .error _ => false) = true := by decide +kernel
  rwa [h] at h5

theorem customary_passes : Passes (accRun s%"v1" (customary s%"/entry/data/data")) :=
  passes_of (by decide +kernel)

/-- `command_renamed`: the file with other names passes, since the one with the customary names
does. -/
theorem command_renamed_case : Passes (accRun s%"v1" (ownNames s%"/run_7/plot/counts")) := by
  obtain ⟨sets, f, _, hs, hw, hf, hdir, _, _⟩ := acc_listed
  have hd := acc_sound hf (hdir ▸ ⟨cmd_has, cmd_lawful⟩)
  have h := customary_passes
  unfold accRun at h ⊢
  exact (command_renamed (f := customary s%"/entry/data/data") (f' := ownNames s%"/run_7/plot/counts") hs hw hd
    (acc_plain _) rfl (customary_wellNamed _) (ownNames_wellNamed _) (acc_disk _ _) (acc_disk _ _)
    (customary_ownNames moved_data)
    (fun mgr hR => exchanged_meaningless (accMgr_saysNothing (accMgr_of hs hw hd hR)))).1 h

end Punx
