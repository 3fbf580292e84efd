import Verif.Props.Part4

/-!
# C113 for the command: `punx validate` on two files with a common part
-/

namespace Punx
open Spec

/-- A definition that is used was read from a file of the directory. -/
theorem own_read {lib : Lib} {pattern : Str → Pat} {d : SetDir} {mgr : Manager}
    (h : OwnDefinitions lib pattern d mgr) {k : Str} {cd : ClassDef}
    (hk : Dict.get? mgr.classes k = some cd) :
    ∃ c fs f x t d1 d2, d.listing c = some fs ∧ f ∈ fs ∧ f.content = some x ∧
      readDefinition t c x d1 = .ok (cd, d2) := by
  obtain ⟨⟨ds, ⟨_, _, s, h1, h2⟩, _⟩, _⟩ := h
  have key : ∀ {l acc r d1 d2}, readFiles (acceptedBy lib d) l acc d1 = .ok (r, d2) →
      Dict.get? acc k = none → Dict.get? r k = some cd → ∃ p ∈ l, ReadFrom (acceptedBy lib d) p cd := by
    intro l acc r d1 d2 hr ha hg
    rcases readFiles_get hr k with ⟨pre, p, post, cd', e, _, _, h4, h5⟩ | ⟨_, h4⟩
    · rw [hg] at h4
      injection h4 with h4
      subst h4
      exact ⟨p, by rw [e]; simp, h5⟩
    · rw [hg, ha] at h4
      cases h4
  cases s with
  | none =>
    unfold loadClasses at h2
    rw [if_pos rfl] at h2
    cases hf : nxdlFileList ⟨true, none, d.listing⟩ with
    | error e => rw [hf] at h2; cases h2
    | ok l =>
      rw [hf] at h2
      cases l with
      | nil =>
        have h2' : Except.ok (([] : Dict Str ClassDef), (none : Option Defaults)) =
          .ok (mgr.classes, some ds) := h2
        injection h2' with h2'
        injection h2' with _ h2'
        cases h2'
      | cons q l => cases h2
  | some s =>
    obtain ⟨l, d', h3, h4, _⟩ := loadClasses_ok (dir := ⟨true, some s, d.listing⟩) rfl h2
    obtain ⟨p, hp, hr⟩ := key h4 rfl hk
    obtain ⟨x, d1, d2, hx, _, hrd⟩ := hr
    obtain ⟨fs, hfs, hmem, _⟩ := ((nxdlFileList_ok h3).1 p.1 p.2).1 hp
    exact ⟨_, _, _, _, _, _, _, hfs, hmem, hx, hrd⟩

/-- The names that are given are made of the names that were asked for. -/
theorem named_noSlash {used w g : List Str} (h : Spec.Named used w g) (hw : ∀ n ∈ w, '/' ∉ n) :
    ∀ n ∈ g, '/' ∉ n := by
  induction h with
  | nil => intro n hn; cases hn
  | fresh h1 _ ih =>
    intro n hn
    rcases List.mem_cons.1 hn with rfl | hn
    · exact hw _ List.mem_cons_self
    · exact ih (fun n hn => hw n (List.mem_cons_of_mem _ hn)) n hn
  | @again used n k wanted got h1 _ _ _ _ ih =>
    intro m hm
    rcases List.mem_cons.1 hm with rfl | hm
    · intro hs
      rcases List.mem_append.1 hs with hs | hs
      · exact hw n List.mem_cons_self hs
      · have : ('/' : Char).isDigit = true :=
          Nat.isDigit_of_mem_toDigits (n := k) (by decide) (by decide) hs
        revert this
        decide
    · exact ih (fun n hn => hw n (List.mem_cons_of_mem _ hn)) m hm

theorem contents_noSlash {kids : List Xml} {g f l : List Str} (h : Contents kids g f l)
    (hp : PlainElements kids) : ∀ n ∈ g ++ f, '/' ∉ n := by
  obtain ⟨wg, wf, wl, h1, h2, h3, h4⟩ := h.names
  have asks : ∀ {R : Xml → Str → Prop} {tag : Str} {w : List Str},
      (∀ x n, x ∈ kids → R x n → '/' ∉ n) → List.Forall₂ R (elements tag kids) w →
      ∀ n ∈ w, '/' ∉ n := by
    intro R tag w hR h n hn
    obtain ⟨i, hi⟩ := List.getElem?_of_mem hn
    have hlen := h.length_eq
    have hlt : i < (elements tag kids).length := by
      rw [hlen]; exact (List.getElem?_eq_some_iff.1 hi).1
    have hx : (elements tag kids)[i]? = some (elements tag kids)[i] := List.getElem?_eq_getElem hlt
    exact hR _ _ (List.mem_of_mem_filter (List.getElem_mem hlt)) (Forall₂.getElem h hx hi)
  have hname : ∀ x n, x ∈ kids → nameOf x = some n → '/' ∉ n :=
    fun x n hx hn => hp x hx s%"name" (by simp) n hn
  have := named_noSlash h4 (by
    intro n hn
    rcases List.mem_append.1 hn with hn | hn
    · rcases List.mem_append.1 hn with hn | hn
      · refine asks (R := AsksGroup) ?_ h1 n hn
        rintro x n hx (h | ⟨_, t, ht, rfl⟩)
        · exact hname x n hx h
        · exact fun hm => hp x hx s%"type" (by simp) t ht (List.mem_of_mem_drop hm)
      · exact asks (R := AsksName) hname h2 n hn
    · exact asks (R := AsksName) hname h3 n hn)
  exact fun n hn => this n (List.mem_append_left _ hn)

/-- Definitions from plain documents have plain names. -/
theorem own_simpleNames {lib : Lib} {pattern : Str → Pat} {d : SetDir} {mgr : Manager}
    (hl : LawfulDocs d) (hp : PlainDocs d) (h : OwnDefinitions lib pattern d mgr) :
    SimpleNames mgr.classes := by
  intro c cd hc
  obtain ⟨cat, fs, f, x, t, d1, d2, h1, h2, h3, h4⟩ := own_read h hc
  have hd := definition_contents (hl _ _ _ _ h1 h2 h3) h4
  obtain ⟨p1, p2⟩ := hp _ _ _ _ h1 h2 h3
  have hn := contents_noSlash hd.contents p1
  refine ⟨fun y hy => hn y.1 (List.mem_append_right _ (List.mem_map.2 ⟨y, hy, rfl⟩)), ?_⟩
  intro y hy
  refine ⟨hn y.1 (List.mem_append_left _ (List.mem_map.2 ⟨y, hy, rfl⟩)), ?_⟩
  obtain ⟨i, hi⟩ := List.getElem?_of_mem hy
  have hlt : i < (elements s%"group" x.kids).length := by
    rw [← hd.contents.countGroups, Dict.keys, List.length_map]
    exact (List.getElem?_eq_some_iff.1 hi).1
  have hx : (elements s%"group" x.kids)[i]? = some (elements s%"group" x.kids)[i] :=
    List.getElem?_eq_getElem hlt
  have hmem : (elements s%"group" x.kids)[i] ∈ x.kids :=
    List.mem_of_mem_filter (List.getElem_mem hlt)
  have hg := hd.groups i _ y hx hi
  have hpk := p2 _ hmem
  revert hg hpk
  generalize (elements s%"group" x.kids)[i] = g
  intro hg hpk
  obtain ⟨yn, ys⟩ := y
  cases hg with
  | mk _ hc _ _ _ =>
    intro z hz
    exact contents_noSlash hc hpk z.1 (List.mem_append_right _ (List.mem_map.2 ⟨z, hz, rfl⟩))

/-- **C113.**  `punx validate` is run for two files with the same options and the same file set, and
both validations run to their end.  The files have the object `n` in common, at the same address, in
containers with the same class path.  Then the same lines on `n` and on its content are printed. -/
theorem command_part_alone {lib : Lib} {pattern : Str → Pat} {w : Disks} {env : Env}
    {files : Str → FileState} {upper : Char → Str} {abspath : Str → Str} {sets : Dict Str FileSet}
    (hs : allFileSets w.source w.user = .ok sets) (hw : ∀ kv ∈ sets, WellDescribed kv.2)
    {a : ValidateArgs} (hd : ∀ ref s, a.fileSet = some ref → Dict.get? sets ref = some s →
      HasDefinitions (w.dir s.path) ∧ LawfulDocs (w.dir s.path) ∧ PlainDocs (w.dir s.path))
    (ha : PlainAscii a.report) (hdig : env.isdigit s%"1" = true) {other : Str} {f f' : H5File}
    (hf : files a.infile = .hdf5 f) (hf' : files other = .hdf5 f')
    (hn : WellNamedFile f) (hn' : WellNamedFile f')
    (h : (funcValidate (commandWorld lib pattern w env files upper abspath) a).res = .ok ())
    (h' : (funcValidate (commandWorld lib pattern w env files upper abspath)
      { a with infile := other }).res = .ok ())
    {cp : Str} {n : Node} (hst : Stands env f cp n) (hst' : Stands env f' cp n)
    (hat : '@' ∉ classpathIn env cp n) (hna : AllNodes (NoAbsolute env) n) {l : Line}
    (hl : OwnLine n l) :
    (∃ rows sm sc, Act.report a.infile rows sm sc ∈
        (funcValidate (commandWorld lib pattern w env files upper abspath) a).log ∧
        l ∈ rows.map lineOf) ↔
      ∃ rows sm sc, Act.report other rows sm sc ∈
        (funcValidate (commandWorld lib pattern w env files upper abspath)
          { a with infile := other }).log ∧ l ∈ rows.map lineOf := by
  have hd1 : ∀ ref s, a.fileSet = some ref → Dict.get? sets ref = some s →
      HasDefinitions (w.dir s.path) := fun r s h1 h2 => (hd r s h1 h2).1
  have hd2 : ∀ ref s, a.fileSet = some ref → Dict.get? sets ref = some s →
      HasDefinitions (w.dir s.path) ∧ LawfulDocs (w.dir s.path) :=
    fun r s h1 h2 => ⟨(hd r s h1 h2).1, (hd r s h1 h2).2.1⟩
  obtain ⟨o1, x1, ref, s, mgr, g, e1, e2, e3, e4, e5⟩ := (command_validates_iff hs hw hd1 ha).1 h
  obtain ⟨_, x1', ref', s', mgr', g', e1', e2', e3', e4', e5'⟩ :=
    (command_validates_iff (a := { a with infile := other }) hs hw hd1 ha).1 h'
  have q1 : ref' = ref := Option.some.inj (e1'.symm.trans e1)
  subst q1
  have q2 : s' = s := Option.some.inj (e2'.symm.trans e2)
  subst q2
  have uniq : ∀ m, OwnDefinitions lib pattern (w.dir s'.path) m → m = mgr := by
    intro m hm
    have k1 := (command_manager (lib := lib) (pattern := pattern) hs hw e2 (hd1 _ _ e1 e2)).2 hm
    have k2 := (command_manager (lib := lib) (pattern := pattern) hs hw e2 (hd1 _ _ e1 e2)).2 e3
    rw [k1] at k2
    injection k2
  have q3 := uniq _ e3'
  subst q3
  have q4 : f = g := by rw [hf] at e4; injection e4
  subst q4
  have q5 : f' = g' := by
    have e4'' : files other = .hdf5 g' := e4'
    rw [hf'] at e4''
    injection e4''
  subst q5
  obtain ⟨_, hlaw, hplain⟩ := hd _ _ e1 e2
  have hsimple := own_simpleNames hlaw hplain e3
  obtain ⟨t, t', S, c, c'⟩ := shared_of_stands hn hn' hst hst'
  have key : Expected env mgr' [] f (contents env f) l ↔ Expected env mgr' [] f' (contents env f') l :=
    ⟨expected_part S hsimple (by rw [c]; exact hat) hna hl,
      expected_part S.symm hsimple (by rw [c']; exact hat) hna hl⟩
  have w1 : ∀ file, files a.infile = .hdf5 file → WellNamedFile file := by
    intro file hfile
    rw [hf] at hfile
    injection hfile with hfile
    exact hfile ▸ hn
  have w2 : ∀ file, files other = .hdf5 file → WellNamedFile file := by
    intro file hfile
    rw [hf'] at hfile
    injection hfile with hfile
    exact hfile ▸ hn'
  rw [command_prints_iff hs hw hd2 ha hdig w1,
    command_prints_iff (a := { a with infile := other }) hs hw hd2 ha hdig w2]
  have v : Validatable env mgr' f := (validation_completes_iff hn).1 e5
  have v' : Validatable env mgr' f' := (validation_completes_iff hn').1 e5'
  constructor
  · rintro ⟨_, m, file, hR, _, k3, k4⟩
    obtain ⟨r, s0, r1, r2, r3⟩ := hR.own
    have z1 : r = ref' := Option.some.inj (r1.symm.trans e1)
    subst z1
    have z2 : s0 = s' := Option.some.inj (r2.symm.trans e2)
    subst z2
    have z3 := uniq _ r3
    subst z3
    have z4 : f = file := by have := hR.hdf5; rw [hf] at this; injection this
    subst z4
    exact ⟨rfl, m, f', ⟨o1, x1', ⟨r, s0, e1, e2, e3⟩, hf'⟩, v', k3, key.1 k4⟩
  · rintro ⟨_, m, file, hR, _, k3, k4⟩
    obtain ⟨r, s0, r1, r2, r3⟩ := hR.own
    have z1 : r = ref' := Option.some.inj (r1.symm.trans e1)
    subst z1
    have z2 : s0 = s' := Option.some.inj (r2.symm.trans e2)
    subst z2
    have z3 := uniq _ r3
    subst z3
    have z4 : f' = file := by
      have hh : files other = .hdf5 file := hR.hdf5
      rw [hf'] at hh
      injection hh
    subst z4
    exact ⟨rfl, m, f, ⟨o1, x1, ⟨r, s0, e1, e2, e3⟩, hf⟩, v, k3, key.2 k4⟩

end Punx
