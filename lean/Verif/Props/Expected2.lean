import Verif.Props.Contents
import Verif.Props.Expected

/-!
# C99: the report as a whole: groups, definitions, plot, and the theorem
-/

namespace Punx
open Spec

/-- The name findings of an item are all findings of its name check. -/
theorem nameFindings_self {ctx : Ctx} {seen : List Str} {it : Item} :
    nameFindings (itemNameVerify ctx seen it).log it.oid =
      findings (itemNameVerify ctx seen it).log := by
  rw [nameFindings, findings]
  refine List.filterMap_congr ?_
  intro e he
  rcases emits_itemName ctx seen it e he with ⟨i, k, st, c, rfl, rfl, hk⟩ | ⟨c, g, n, rfl⟩
  · have hk' : k = s%"validItemName" := hk
    simp [hk']
  · rfl

/-- The lines of step 1 are those of the name checks and of the attribute checks. -/
theorem step1_line_iff {env : Env} {mgr : Manager} {mins : Dict (Str × Str) Int} {f : H5File}
    (h : (validateOpen env mgr mins f).res = .ok ()) {l : Line} :
    l ∈ report ((step1Items (catalog env f).log).flatMap
      (fun it => (nameAndAttribute (mkCtx env mgr mins f) [] it).log)) ↔
    (∃ it ∈ (catalog env f).log,
      l ∈ (nameFindings (validateOpen env mgr mins f).log it.oid).map lineOf) ∨
    (∃ it ∈ (catalog env f).log,
      l ∈ (attrFindings (validateOpen env mgr mins f).log it.oid).map lineOf) := by
  have key : ∀ it ∈ (catalog env f).log,
      findings (nameAndAttribute (mkCtx env mgr mins f) [] it).log =
        nameFindings (validateOpen env mgr mins f).log it.oid ++
        attrFindings (validateOpen env mgr mins f).log it.oid := by
    intro it hit
    obtain ⟨h1, e1⟩ := nameFindings_run h hit
    obtain ⟨h2, e2⟩ := attrFindings_run h hit
    rw [attrFindings, e1, e2, nameFindings_self, nameAndAttribute, W.bind_log_of_ok h1,
      findings_append]
  rw [report, findings_flatMap, List.mem_map]
  simp only [List.mem_flatMap, mem_step1Items]
  constructor
  · rintro ⟨x, ⟨it, hit, hx⟩, rfl⟩
    rw [key it hit, List.mem_append] at hx
    rcases hx with hx | hx
    · exact .inl ⟨it, hit, List.mem_map.2 ⟨x, hx, rfl⟩⟩
    · exact .inr ⟨it, hit, List.mem_map.2 ⟨x, hx, rfl⟩⟩
  · rintro (⟨it, hit, hx⟩ | ⟨it, hit, hx⟩)
    · obtain ⟨x, hx', rfl⟩ := List.mem_map.1 hx
      refine ⟨x, ⟨it, hit, ?_⟩, rfl⟩
      rw [key it hit, List.mem_append]
      exact .inl hx'
    · obtain ⟨x, hx', rfl⟩ := List.mem_map.1 hx
      refine ⟨x, ⟨it, hit, ?_⟩, rfl⟩
      rw [key it hit, List.mem_append]
      exact .inr hx'

/-- The lines of step 2 are the expected lines on groups. -/
theorem group_lines_iff {env : Env} {mgr : Manager} {mins : Dict (Str × Str) Int} {f : H5File}
    (hc : (catalog env f).res = .ok ()) (h2 : (step2 (mkCtx env mgr mins f)).res = .ok ())
    (hw : WellNamedFile f) {l : Line} :
    l ∈ report (step2 (mkCtx env mgr mins f)).log ↔
      GroupLine env mgr f (catalog env f).log l := by
  obtain ⟨parts, e, hp⟩ := step2_lines hc h2
  rw [addressed_groups hc hw] at hp
  rw [report, e, List.mem_flatten]
  constructor
  · rintro ⟨ls, hls, hl⟩
    obtain ⟨it, hit, hr⟩ := forall₂_mem' hp hls
    obtain ⟨hit, hg⟩ := List.mem_filter.1 hit
    obtain ⟨g, hg⟩ := Item.isGroup_iff.1 hg
    have ha := (catalogued_group hc hit hg).1
    rcases hr with ⟨hn, rfl⟩ | ⟨hn, g', a, c, hg', ha', hcl, rfl⟩
    · rw [List.mem_singleton] at hl
      rw [hl, ha]
      exact .nonNexus hit hg hn
    · rw [hg] at hg'; cases hg'
      rw [ha] at ha'; cases ha'
      exact .nexus hit hg hn hcl hl
  · intro hl
    cases hl with
    | @nonNexus it g hit hg hn =>
      obtain ⟨ls, hls, hr⟩ := forall₂_mem hp
        (List.mem_filter.2 ⟨hit, Item.isGroup_iff.2 ⟨g, hg⟩⟩)
      refine ⟨ls, hls, ?_⟩
      rcases hr with ⟨_, rfl⟩ | ⟨hn', _⟩
      · rw [(catalogued_group hc hit hg).1]; simp
      · exact absurd hn hn'
    | @nexus it g c l hit hg hn hcl hl =>
      obtain ⟨ls, hls, hr⟩ := forall₂_mem hp
        (List.mem_filter.2 ⟨hit, Item.isGroup_iff.2 ⟨g, hg⟩⟩)
      refine ⟨ls, hls, ?_⟩
      rcases hr with ⟨hn', _⟩ | ⟨_, g', a, c', hg', ha', hcl', rfl⟩
      · exact absurd hn' hn
      · rw [hg] at hg'; cases hg'
        rw [(catalogued_group hc hit hg).1] at ha'; cases ha'
        rw [groupClass_unique hcl' hcl]
        exact hl

/-- The lines of step 3 are the expected lines on definitions. -/
theorem definition_lines_iff {env : Env} {mgr : Manager} {mins : Dict (Str × Str) Int} {f : H5File}
    (hc : (catalog env f).res = .ok ()) (h3 : (step3 (mkCtx env mgr mins f)).res = .ok ())
    {l : Line} :
    l ∈ report (step3 (mkCtx env mgr mins f)).log ↔
      DefinitionLine env mgr f (catalog env f).log l := by
  obtain ⟨parts, e, hp⟩ := step3_lines hc h3
  change l ∈ lines (step3 (mkCtx env mgr mins f)) ↔ _
  rw [e, List.mem_flatten]
  -- the lines of a declaring group
  have back : ∀ {g name}, DeclaredBy env f (catalog env f).log g name → ∃ ls ∈ parts,
      (Dict.get? mgr.classes name = none ∧ ls = [(some g.name, s%"known NXDL", .error)]) ∨
     ∃ ad gname entry more parts, Dict.get? mgr.classes name = some ad ∧
      ad.groups = (gname, entry) :: more ∧
      List.Forall₂ (FieldLines env f g g.name) entry.fields parts ∧
      ls = [(some g.name, s%"known NXDL", .ok),
        (some g.name, s%"NeXus application definition",
          okIf (ad.category = .applications ∨ ad.category = .contributed) .error),
        (some g.name, s%"NeXus application definition", .todo)] ++ parts.flatten := by
    rintro g name ⟨it, hit, hdef, p, hpar, hg, hd⟩
    obtain ⟨ls, hls, p', _, hpar', g', hg', name', hd', hr⟩ :=
      forall₂_mem hp (mem_definers.2 ⟨hit, hdef⟩)
    rw [hpar] at hpar'; cases hpar'
    rw [hg] at hg'; cases hg'
    rw [declares_unique hd' hd] at hr
    exact ⟨ls, hls, hr⟩
  constructor
  · rintro ⟨ls, hls, hl⟩
    obtain ⟨it, hit, p, _, hpar, g, hg, name, hd, hr⟩ := forall₂_mem' hp hls
    obtain ⟨hit, hdef⟩ := mem_definers.1 hit
    have hD : DeclaredBy env f (catalog env f).log g name :=
      ⟨it, hit, hdef, p, hpar, hg, hd⟩
    rcases hr with ⟨hno, rfl⟩ | ⟨ad, gname, entry, more, fs, had, hgr, hfs, rfl⟩
    · rw [List.mem_singleton] at hl
      have := DefinitionLine.known (mgr := mgr) hD
      rw [okIf_neg (by rw [hno]; simp)] at this
      rw [hl]
      exact this
    · simp only [List.mem_append, List.mem_cons, List.not_mem_nil, or_false] at hl
      rcases hl with (rfl | rfl | rfl) | hl
      · have := DefinitionLine.known (mgr := mgr) hD
        rw [okIf_pos ⟨ad, had⟩] at this
        exact this
      · exact .category hD had
      · exact .todo hD had
      · rw [List.mem_flatten] at hl
        obtain ⟨ks, hks, hl⟩ := hl
        obtain ⟨fld, hfld, hk⟩ := forall₂_mem' hfs hks
        have hR : RequiredIn env mgr f (catalog env f).log g fld :=
          ⟨name, ad, gname, entry, more, hD, had, hgr, hfld⟩
        cases hk with
        | plain hn he =>
          rw [List.mem_singleton] at hl
          rw [hl]
          exact .there hR hn
        | enum hn he _ =>
          simp only [List.mem_cons, List.not_mem_nil, or_false] at hl
          rcases hl with rfl | rfl
          · exact .there hR hn
          · exact .value hR hn he
        | absent hn he =>
          rw [List.mem_singleton] at hl
          rw [hl]
          exact .missing hR hn
  · -- the lines of a field
    have field : ∀ {g fld}, RequiredIn env mgr f (catalog env f).log g fld →
        ∃ ls ∈ parts, ∃ ks, FieldLines env f g g.name fld ks ∧ ∀ l ∈ ks, l ∈ ls := by
      rintro g fld ⟨name, ad, gname, entry, more, hD, had, hgr, hfld⟩
      obtain ⟨ls, hls, ⟨hno, _⟩ | ⟨ad', gname', entry', more', fs, had', hgr', hfs, rfl⟩⟩ := back hD
      · rw [had] at hno; cases hno
      · rw [had] at had'; cases had'
        rw [hgr] at hgr'; cases hgr'
        obtain ⟨ks, hks, hk⟩ := forall₂_mem hfs hfld
        exact ⟨_, hls, ks, hk, fun l hl => List.mem_append.2
          (.inr (List.mem_flatten.2 ⟨ks, hks, hl⟩))⟩
    intro hl
    cases hl with
    | @known g name hD =>
      obtain ⟨ls, hls, ⟨hno, rfl⟩ | ⟨ad', gname', entry', more', fs, had', _, _, rfl⟩⟩ := back hD
      · refine ⟨_, hls, ?_⟩
        rw [okIf_neg (by rw [hno]; simp)]
        simp
      · refine ⟨_, hls, ?_⟩
        rw [okIf_pos (P := ∃ ad, Dict.get? mgr.classes name = some ad) ⟨ad', had'⟩]
        simp
    | @category g name ad hD had =>
      obtain ⟨ls, hls, ⟨hno, rfl⟩ | ⟨ad', gname', entry', more', fs, had', _, _, rfl⟩⟩ := back hD
      · rw [had] at hno; cases hno
      · rw [had] at had'; cases had'
        refine ⟨_, hls, ?_⟩
        simp only [List.mem_append, List.mem_cons]
        exact .inl (.inr (.inl trivial))
    | @todo g name ad hD had =>
      obtain ⟨ls, hls, ⟨hno, rfl⟩ | ⟨ad', gname', entry', more', fs, had', _, _, rfl⟩⟩ := back hD
      · rw [had] at hno; cases hno
      · refine ⟨_, hls, ?_⟩
        simp only [List.mem_append, List.mem_cons]
        exact .inl (.inr (.inr (.inl trivial)))
    | @there g n fld hR hn =>
      obtain ⟨ls, hls, ks, hk, hin⟩ := field hR
      refine ⟨ls, hls, hin _ ?_⟩
      cases hk with
      | plain hn' _ => rw [hn] at hn'; cases hn'; simp
      | enum hn' _ _ => rw [hn] at hn'; cases hn'; simp
      | absent hn' _ => rw [hn] at hn'; cases hn'
    | @missing g fld hR hn =>
      obtain ⟨ls, hls, ks, hk, hin⟩ := field hR
      refine ⟨ls, hls, hin _ ?_⟩
      cases hk with
      | plain hn' _ => rw [hn] at hn'; cases hn'
      | enum hn' _ _ => rw [hn] at hn'; cases hn'
      | absent hn' _ => simp
    | @value g n fld hR hn he =>
      obtain ⟨ls, hls, ks, hk, hin⟩ := field hR
      refine ⟨ls, hls, hin _ ?_⟩
      cases hk with
      | plain _ he' => exact absurd he' he
      | enum hn' _ _ => rw [hn] at hn'; cases hn'; simp
      | absent _ he' => exact absurd he' he

/-- For files with usual names the groups of step 2 are the groups of the catalogue. -/
theorem hasClass_groupItems {env : Env} {f : H5File} (hc : (catalog env f).res = .ok ())
    (hw : WellNamedFile f) {c : Str} :
    HasClass env (groupItems env f) c ↔ HasClass env (catalog env f).log c := by
  rw [groupItems, addressed_groups hc hw]
  constructor
  · rintro ⟨it, hit, g, hg, hn, hcl⟩
    exact ⟨it, (List.mem_filter.1 hit).1, g, hg, hn, hcl⟩
  · rintro ⟨it, hit, g, hg, hn, hcl⟩
    exact ⟨it, List.mem_filter.2 ⟨hit, Item.isGroup_iff.2 ⟨g, hg⟩⟩, g, hg, hn, hcl⟩

theorem plotRequired_groupItems {env : Env} {f : H5File} (hc : (catalog env f).res = .ok ())
    (hw : WellNamedFile f) {classes : Dict Str ClassDef} {mins : Dict (Str × Str) Int} :
    PlotRequired env classes mins (groupItems env f) ↔
      PlotRequired env classes mins (catalog env f).log := by
  unfold PlotRequired
  rw [hasClass_groupItems hc hw]

/-- The lines (address, test, verdict) of the report on a file, over the items of the catalogue. -/
theorem report_iff_items {env : Env} {mgr : Manager} {mins : Dict (Str × Str) Int} {f : H5File}
    (hdig : env.isdigit s%"1" = true) (hw : WellNamedFile f)
    (hnd : ∀ d, Dict.get? mgr.classes s%"NXentry" = some d → (Dict.keys d.groups).Nodup)
    (h : (validateOpen env mgr mins f).res = .ok ()) (l : Line) :
    l ∈ report (validateOpen env mgr mins f).log ↔
      Expected env mgr mins f (catalog env f).log l := by
  have c := completed h
  obtain ⟨m, hlog, hp, _⟩ := c.log
  obtain ⟨A, S, x, hf, hA, hS, _, hxa, hxt, hv⟩ := default_plot_verdict h hnd
  have hplot : l ∈ report (defaultPlotVerify (mkCtx env mgr mins f) m).log ↔
      PlotLine env mgr mins f (catalog env f).log l := by
    obtain ⟨S', x', e1, e2, _, e4, e5, _⟩ := plot_step c.catalog hp
    have hx : x' = x := by
      have hl := hlog
      have : (findings (validateOpen env mgr mins f).log).getLast? = some x' := by
        rw [hl, findings_append, e1, ← List.append_assoc]
        exact List.getLast?_concat
      rw [hf, List.getLast?_concat] at this
      injection this with this
      exact this.symm
    rw [report, e1, List.map_append, e2, List.mem_append, List.map_singleton, List.mem_singleton,
      hx, lineOf, hxa, hxt]
    have hv' : PlotVerdict env mgr.classes mins f (catalog env f).log (catalog env f).log
        x.status x.comment := by
      generalize x.status = st at hv
      generalize x.comment = cm at hv
      cases hv with
      | byAttribute a ha => exact .byAttribute a ha
      | bySignal a ha hb => exact .bySignal a ha hb
      | required ha hb hr => exact .required ha hb ((plotRequired_groupItems c.catalog hw).1 hr)
      | optional ha hb hr =>
        exact .optional ha hb (fun hh => hr ((plotRequired_groupItems c.catalog hw).2 hh))
    constructor
    · rintro (hl | rfl)
      · exact .search hl
      · exact .verdict hv'
    · intro hl
      cases hl with
      | search hl => exact .inl hl
      | verdict hl => rw [PlotVerdict.unique hl hv']; exact .inr rfl
  have happ : report (validateOpen env mgr mins f).log =
      report ((step1Items (catalog env f).log).flatMap
        (fun it => (nameAndAttribute (mkCtx env mgr mins f) [] it).log)) ++
      report (step2 (mkCtx env mgr mins f)).log ++ report (step3 (mkCtx env mgr mins f)).log ++
      report (defaultPlotVerify (mkCtx env mgr mins f) m).log := by
    rw [hlog]
    simp only [report, findings_append, List.map_append]
  rw [happ, List.mem_append, List.mem_append, List.mem_append, step1_line_iff h,
    name_lines_iff h, value_lines_iff hdig h hw, group_lines_iff c.catalog c.step2 hw,
    definition_lines_iff c.catalog c.step3, hplot, Expected]
  simp only [or_assoc]

/-- **C99.** The lines (address, test, verdict) of the report on a file are exactly the expected
ones. -/
theorem report_iff {env : Env} {mgr : Manager} {mins : Dict (Str × Str) Int} {f : H5File}
    (hdig : env.isdigit s%"1" = true) (hw : WellNamedFile f)
    (hnd : ∀ d, Dict.get? mgr.classes s%"NXentry" = some d → (Dict.keys d.groups).Nodup)
    (h : (validateOpen env mgr mins f).res = .ok ()) (l : Line) :
    l ∈ report (validateOpen env mgr mins f).log ↔
      Expected env mgr mins f (contents env f) l := by
  rw [← catalog_contents hw (completed h).catalog]
  exact report_iff_items hdig hw hnd h l

end Punx
