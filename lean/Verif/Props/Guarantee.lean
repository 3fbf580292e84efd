import Verif.Props.Comply
import Verif.Props.Removed
import Verif.Props.Entry
import Verif.Props.Paths
import Verif.Spec.Guarantee

/-!
# C147: what a file that passes guarantees
-/

namespace Punx
open Spec

variable {env : Env} {mgr : Manager} {f : H5File} {mins : Dict (Str × Str) Int}

theorem nxClassOf_text {a : List (Str × Val)} {c : Str} (h : nxClassOf env a = some c) :
    s%"NX" <+: c ∧ ∃ v, (s%"NX_class", v) ∈ a ∧ TextOf env v c := by
  unfold nxClassOf at h
  split at h
  · next c' hv =>
    split at h
    · next hp => cases h; exact ⟨hp, _, mem_of_lookup hv, .inl rfl⟩
    · cases h
  · next b hv =>
    split at h
    · next c' hd =>
      split at h
      · next hp => cases h; exact ⟨hp, _, mem_of_lookup hv, .inr ⟨b, rfl, hd⟩⟩
      · cases h
    · cases h
  · cases h

/-- Objects in NeXus content are catalogued with the classes of the groups that they are in. -/
theorem inNexus_item (hs : PlainNames mgr) (h : Accepted env mgr mins f) {cp : Str} {n : Node}
    (hn : InNexus env f cp n) : cp ≠ s%"non-NeXus content" ∧ ¬ s%"/" <:+ cp ∧
      ∃ (c : Item) (pos : List Nat), c.classpath = cp ∧
        ∀ x ∈ contentsNode env c pos n, x ∈ contents env f := by
  induction hn with
  | root hm =>
    obtain ⟨pos', hpos⟩ := kids_member (env := env) (c := rootOf f) (pos := []) (i := 0) hm
    refine ⟨by decide, by decide, rootOf f, pos', rfl, fun x hx => ?_⟩
    rw [contents]
    exact List.mem_cons_of_mem _ (List.mem_append_right _ (hpos x hx))
  | @inside cp l m c a ks n hg hc hm ih =>
    obtain ⟨h1, h2, b, pos, rfl, hx⟩ := ih
    obtain ⟨hnx, _⟩ := nxClassOf_text hc
    have hcp : (memberItem env b pos (.group m a ks)).classpath = b.classpath ++ '/' :: c := by
      show classpathIn env b.classpath (.group m a ks) = _
      simp [classpathIn, h1, h2, hc]
    have hne : b.classpath ++ '/' :: c ≠ s%"non-NeXus content" := fun e => by
      have : '/' ∈ s%"non-NeXus content" := by rw [← e]; simp
      revert this; decide
    have hnil : b.classpath ++ '/' :: c ≠ [] := by simp
    have hit : memberItem env b pos (.group m a ks) ∈ contents env f :=
      hx _ (by rw [contentsNode]; exact List.mem_cons_self)
    obtain ⟨d, hd⟩ := h.known (c := c) hit rfl (by rwa [hcp]) (.inr ⟨by rwa [hcp], hc⟩)
    have p1 := hs c d hd
    obtain ⟨pos', hpos⟩ := kids_member (env := env) (c := memberItem env b pos (.group m a ks))
      (pos := pos) (i := 0) hm
    refine ⟨hne, ?_, _, pos', hcp, fun x hx' => hx x ?_⟩
    · intro hsl
      obtain ⟨c', rfl⟩ := hnx
      obtain ⟨t, ht⟩ := hsl
      have e := congrArg List.getLast? ht
      have e' : ('/' :: (s%"NX" ++ c')).getLast? = (s%"NX" ++ c').getLast? := by simp
      rw [List.getLast?_append_of_ne_nil _ (by simp), List.getLast?_append_of_ne_nil _ (by simp), e'] at e
      exact p1 (List.mem_of_getLast? e.symm)
    · rw [contentsNode]
      refine List.mem_cons_of_mem _ (List.mem_append_right _ ?_)
      rw [containerOf, if_neg (by rwa [hcp])]
      exact hpos x hx'

/-- **C147**: every object in NeXus content of an accepted file has a usable class and a valid name; its
targets, signals and axes exist. -/
theorem accepted_guarantees (hs : PlainNames mgr)
    (h : Accepted env mgr mins f) {cp : Str} {n : Node} (hn : InNexus env f cp n) :
    Guaranteed env mgr f cp n := by
  obtain ⟨h1, h2, b, pos, rfl, hx⟩ := inNexus_item hs h hn
  have hit : memberItem env b pos n ∈ contents env f := hx _ (by
    cases n <;> rw [contentsNode] <;> exact List.mem_cons_self)
  have hcp : HasNexusClass env n →
      (memberItem env b pos n).classpath ≠ s%"non-NeXus content" := by
    intro hc e
    have e : classpathIn env b.classpath n = s%"non-NeXus content" := e
    have : '/' ∈ s%"non-NeXus content" := by
      rw [← e]
      cases n with
      | group m a ks =>
        obtain ⟨c, hc⟩ := hc
        simp [classpathIn, h1, h2, hc]
      | dataset => simp [classpathIn, h1, h2]
      | datatype => simp [classpathIn, h1, h2]
    revert this; decide
  have carries : HasNexusClass env n → ∀ {k v}, (k, v) ∈ n.attrs →
      CarriesAttr (contents env f) (memberItem env b pos n) n.name k v := fun hc k v hv =>
    ⟨hit, hcp hc, rfl, n.attrs, by cases n <;> rfl, hv⟩
  have checkable : HasNexusClass env n → ∀ {k v}, (k, v) ∈ n.attrs →
      AttrCheckable env (.node n) k v := fun hc k v hv =>
    h.valid.names _ hit (hcp hc) n.attrs (by cases n <;> rfl) (k, v) hv
  constructor
  · rintro m a ks c rfl hc
    obtain ⟨_, v, hv, ht⟩ := nxClassOf_text hc
    by_contra hu
    exact h.clean _ _ (.unusable (carries ⟨c, hc⟩ hv) ht hu)
  · intro hat hcol
    by_contra hnm
    refine h.clean _ _ (.objectName hit rfl hat hcol hnm)
  · intro hc v hv
    obtain ⟨t, ht⟩ := (checkable hc hv).text (.inr (.inl rfl))
    have hok : TargetOk env mgr f t := by
      by_contra hu
      exact h.clean _ _ (.target (carries hc hv) ht hu)
    obtain ⟨u, rfl, hp, hl⟩ := hok
    refine ⟨u, split '/' u, ht, pathIs_iff.2 rfl, fun s hs => ?_, ?_⟩
    · obtain ⟨pre, post, e⟩ := List.append_of_mem hs
      exact (hp pre s post e).1
    · obtain ⟨segs, st, h1, h2, h3⟩ := (path_contained.1 hl).2
      refine ⟨segs, st, h1, ?_, h3⟩
      rw [startsAt_iff] at h2 ⊢
      rw [h2, startNode, startNode]
      simp [startsWith_iff]
  · rintro m a ks v rfl hc hv
    obtain ⟨s, ht⟩ := (checkable hc hv).groupSignal rfl ⟨_, _, _, rfl⟩
    refine ⟨s, ht, ?_, ?_⟩
    · by_contra hu
      exact h.clean _ _ (.signalName (carries hc hv) rfl ht hu)
    · rw [← path_contained]
      by_contra hu
      exact h.clean _ _ (.signal (carries hc hv) rfl rfl ht (by simpa using hu))
  · intro hc v hv
    obtain ⟨names, ha, hg⟩ := (checkable hc hv).axes rfl
    refine ⟨names, ha, fun x hxn => ?_⟩
    rcases hg with rfl | ⟨⟨g, hg⟩, _⟩
    · cases hxn
    · have hgn : g = n ∧ ∃ m a ks, n = .group m a ks := by
        cases n with
        | group m a ks => cases hg; exact ⟨rfl, _, _, _, rfl⟩
        | dataset => cases hg
        | datatype => cases hg
      obtain ⟨rfl, hgr⟩ := hgn
      refine ⟨hgr, ?_, ?_⟩
      · by_contra hu
        exact h.clean _ _ (.axisName (carries hc hv) ha hxn hu)
      · have hx : ∃ k, h5get f g x = .ok (some k) := by
          by_contra hu
          exact h.clean _ _ (.axis (carries hc hv) ha hxn hg hu)
        obtain ⟨k, hk⟩ := hx
        have hne : x ≠ [] := fun e => by rw [path_object (m := k).1 e] at hk; cases hk
        exact ⟨k, (path_object.2 hne).1.2 hk⟩

/-- **C147**, for the validation: it ends, and no line of the report is an ERROR. -/
theorem clean_report_guarantees (hs : PlainNames mgr) (hdig : env.isdigit s%"1" = true)
    (hw : WellNamedFile f)
    (hnd : ∀ d, Dict.get? mgr.classes s%"NXentry" = some d → (Dict.keys d.groups).Nodup)
    (hr : (validateOpen env mgr mins f).res = .ok ())
    (he : ∀ x ∈ findings (validateOpen env mgr mins f).log, x.status ≠ .error) {cp : Str} {n : Node}
    (hn : InNexus env f cp n) : Guaranteed env mgr f cp n :=
  accepted_guarantees hs ((accepted_iff hdig hw hnd).2 ⟨hr, he⟩) hn

/-- **C147**, for the command. -/
theorem passed_guarantees {lib : Lib} {pattern : Str → Pat} {w : Disks} {files : Str → FileState}
    {upper : Char → Str} {abspath : Str → Str} {sets : Dict Str FileSet} {a : ValidateArgs}
    (hs : allFileSets w.source w.user = .ok sets)
    (hw : ∀ kv ∈ sets, WellDescribed kv.2) (hd : SoundSet w sets a) (ha : PlainAscii a.report)
    (hdig : env.isdigit s%"1" = true) (hf : files a.infile = .hdf5 f) (hn : WellNamedFile f)
    (hx : ∀ p, FileNames (w.dir p))
    (h : Passes (funcValidate (commandWorld lib pattern w env files upper abspath) a)) :
    ∃ mgr, CommandReaches lib pattern w files sets a mgr f ∧
      ∀ cp n, InNexus env f cp n → Guaranteed env mgr f cp n := by
  rw [command_passes_iff hs hw hd ha hdig (fun file e => by rw [hf] at e; cases e; exact hn)] at h
  obtain ⟨mgr, file, hr, hacc⟩ := h
  cases reaches_file hr hf
  obtain ⟨_, _, _, _, ho⟩ := hr.own
  exact ⟨mgr, hr, fun cp n hi => accepted_guarantees (ho.plain (hx _)) hacc hi⟩

end Punx
