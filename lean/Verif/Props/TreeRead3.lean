import Verif.Props.TreeRead2
import Verif.Props.H5TreeArray
import Verif.Props.Report

/-!
# C122: what follows, what does not hold, examples
-/

namespace Punx

open Spec

/-- **C122**: two files with plain names and the same report look the same: at each path there is in both
of them an object of the same kind (a group of the same class, a dataset of the same type, a link to the
same target), with the same attributes and the same texts for their values. -/
theorem same_report_same_tree {env : Env} {shown shown' : Int} {sa : Bool} {fname fname' : Str}
    {f g : H5File} {b c : Bool} {ls : List Str}
    (hb : isNeXusFile env (.hdf5 f) = .ok (some b)) (hc : isNeXusFile env (.hdf5 g) = .ok (some c))
    (hf : PlainFile env b f) (hg : PlainFile env c g)
    (h : treeReport env shown sa fname (.hdf5 f) = .ok (some ls))
    (h' : treeReport env shown' sa fname' (.hdf5 g) = .ok (some ls))
    {p : List Str} {w : What} {as : List (Str × Val)} (hp : ShownAt env b f.kids p w as) :
    ∃ w' as', ShownAt env c g.kids p w' as' ∧
      (∃ k, TellsKind env k w ∧ TellsKind env k w') ∧
      ∃ rs, TellsAttrs env sa rs as ∧ TellsAttrs env sa rs as' := by
  obtain ⟨r, hr, h1, h2, h3⟩ := (tree_read_back hb hf h).2.2 p w as hp
  obtain ⟨w', as', h4, _, h5, h6⟩ := (tree_read_back hc hg h').2.1 r hr
  rw [h1] at h4
  exact ⟨w', as', h4, ⟨_, h2, h5⟩, _, h3, h6⟩

theorem classTail_unique {env : Env} {attrs : List (Str × Val)} {s t : Str}
    (hs : ClassTail env attrs s) (ht : ClassTail env attrs t) : s = t := by
  rcases hs with ⟨h1 | h1, rfl⟩ | ⟨v, x, h1, h2, h3, rfl⟩ <;>
    rcases ht with ⟨h4 | h4, rfl⟩ | ⟨v', x', h4, h5, h6, rfl⟩
  · rfl
  · rfl
  · rw [h1] at h4; cases h4
  · rfl
  · rfl
  · rw [h1] at h4; injection h4 with h4; exact absurd h4.symm h5
  · rw [h1] at h4; cases h4
  · rw [h1] at h4; injection h4 with h4; exact absurd h4 h2
  · rw [h1] at h4
    injection h4 with h4
    subst h4
    congr 1
    unfold FirstText TextOf at h3 h6
    rcases h3 with (rfl | ⟨_, rfl, e⟩) | ⟨_, rfl⟩ | ⟨_, _, rfl, e⟩ <;> simp_all

/-- **C122**: the groups and their classes, in particular. -/
theorem same_report_same_groups {env : Env} {shown shown' : Int} {sa : Bool} {fname fname' : Str}
    {f g : H5File} {b c : Bool} {ls : List Str}
    (hb : isNeXusFile env (.hdf5 f) = .ok (some b)) (hc : isNeXusFile env (.hdf5 g) = .ok (some c))
    (hf : PlainFile env b f) (hg : PlainFile env c g)
    (h : treeReport env shown sa fname (.hdf5 f) = .ok (some ls))
    (h' : treeReport env shown' sa fname' (.hdf5 g) = .ok (some ls)) (p : List Str) (cls : Str) :
    (∃ attrs as, ShownAt env b f.kids p (.group attrs) as ∧ ClassTail env attrs cls) ↔
    ∃ attrs as, ShownAt env c g.kids p (.group attrs) as ∧ ClassTail env attrs cls := by
  have key : ∀ {f g : H5File} {b c : Bool} {shown shown' : Int} {fname fname' : Str},
      isNeXusFile env (.hdf5 f) = .ok (some b) → isNeXusFile env (.hdf5 g) = .ok (some c) →
      PlainFile env b f → PlainFile env c g →
      treeReport env shown sa fname (.hdf5 f) = .ok (some ls) →
      treeReport env shown' sa fname' (.hdf5 g) = .ok (some ls) →
      (∃ attrs as, ShownAt env b f.kids p (.group attrs) as ∧ ClassTail env attrs cls) →
      ∃ attrs as, ShownAt env c g.kids p (.group attrs) as ∧ ClassTail env attrs cls := by
    intro f g b c shown shown' fname fname' hb hc hf hg h h' ⟨attrs, as, h1, h2⟩
    obtain ⟨w', as', h3, ⟨k, k1, k2⟩, _⟩ := same_report_same_tree hb hc hf hg h h' h1
    cases k with
    | group o =>
      cases w' with
      | group attrs' =>
        refine ⟨attrs', as', h3, ?_⟩
        cases o with
        | none => rw [classTail_unique h2 k1]; exact k2
        | some x => rw [classTail_unique h2 k1]; exact k2
      | _ => cases o <;> cases k2
    | _ => cases k1
  exact ⟨key hb hc hf hg h h', key hc hb hg hf h' h⟩

theorem split_join_lines {ls : List Str} (hne : ls ≠ []) (h : ∀ l ∈ ls, '\n' ∉ l) :
    split '\n' (join s%"\n" ls) = ls := by
  induction ls with
  | nil => exact absurd rfl hne
  | cons a ls ih =>
    cases ls with
    | nil => exact split_noSep (h a List.mem_cons_self)
    | cons b ls =>
      have e : join s%"\n" (a :: b :: ls) = a ++ '\n' :: join s%"\n" (b :: ls) := by simp [join]
      rw [e, split_append_sep (h a List.mem_cons_self), ih (by simp) fun l hl =>
        h l (List.mem_cons_of_mem _ hl)]

/-- **C122**: the same for the text that is printed (`punx/main.py:173,186`), if no line has a line break
in it (values of arrays with several dimensions have; texts may have). -/
theorem tree_read_text {env : Env} {shown : Int} {sa : Bool} {fname : Str} {f : H5File}
    {ls : List Str} (h : treeReport env shown sa fname (.hdf5 f) = .ok (some ls))
    (hl : ∀ l ∈ ls, '\n' ∉ l) :
    readTree (split '\n' (join s%"\n" ls)) = readTree ls := by
  rw [split_join_lines ?_ hl]
  rintro rfl
  obtain ⟨_, _, tl, _, _, e3, e4⟩ := treeReport_ok.1 h
  obtain ⟨blocks, rfl, hbl⟩ := tree_shows_all _ _ _ _ e3
  rw [outlineFile] at hbl
  cases hbl with
  | cons h1 _ =>
    obtain ⟨hd, arr, as, rfl, _⟩ := h1
    simp at e4

/-! ## what does not hold -/

/-- A name with a colon: a group looks like a soft link. -/
def colonFile : H5File := ⟨[], .cons s%"a: --> /b" .hard (.group s%"/a: --> /b" [] .nil) .nil⟩
/-- The file with the soft link. -/
def softFile : H5File := ⟨[], .broken s%"a" (.soft s%"/b") .nil⟩

/-- Without the assumption about names, different files have the same report. -/
theorem report_ambiguous :
    treeReport treeEnv 5 true s%"f.h5" (.hdf5 colonFile) =
      treeReport treeEnv 5 true s%"f.h5" (.hdf5 softFile) ∧
    (∃ ls, treeReport treeEnv 5 true s%"f.h5" (.hdf5 colonFile) = .ok (some ls)) ∧
    ShownAt treeEnv false colonFile.kids [s%"a: --> /b"] (.group []) [] ∧
    ¬ ∃ p attrs as, ShownAt treeEnv false softFile.kids p (.group attrs) as := by
  refine ⟨by rfl, ⟨_, rfl⟩, ?_, ?_⟩
  · have hn : ¬ NexusLink treeEnv [] s%"/a: --> /b" := by
      rintro ⟨v, hv, _⟩
      cases hv
    have : ShownAt treeEnv false colonFile.kids [s%"a: --> /b"] _ _ :=
      .here (kind := .hard) (o := some (.group s%"/a: --> /b" [] .nil)) (by simp [colonFile, memberLinks])
    have ha : appearance treeEnv false .hard (some (.group s%"/a: --> /b" [] .nil)) =
        (.group [], []) := by
      simp only [appearance, followed]
      rw [if_neg hn]
      rfl
    rw [ha] at this
    exact this
  · rintro ⟨p, attrs, as, h⟩
    obtain ⟨l, hl, h⟩ := shownAt_iff.1 h
    simp only [softFile, memberLinks, List.mem_singleton] at hl
    subst hl
    rcases h with ⟨_, h⟩ | ⟨_, _, _, _, h, _⟩
    · simp [appearance, unfollowedAs] at h
    · cases h

/-- A text with a line break. -/
def fakeFile : H5File := ⟨[], .cons s%"note" .hard
  (.dataset s%"/note" [] ⟨.str s%"x\n  secret:NXentry", .O, s%"object", some [], [],
    s%"x\n  secret:NXentry", fun _ => [], []⟩) .nil⟩
/-- The text, and a group. -/
def realFile : H5File := ⟨[], .cons s%"note" .hard
  (.dataset s%"/note" [] ⟨.str s%"x", .O, s%"object", some [], [], s%"x", fun _ => [], []⟩)
  (.cons s%"secret" .hard (.group s%"/secret" [(s%"NX_class", .str s%"NXentry")] .nil) .nil)⟩

/-- A text in the file can look like an object: here the printed texts differ only in the words that the
first line has for NeXus files. -/
theorem text_faked : ∃ ls ls',
    treeReport treeEnv 5 false s%"f.h5" (.hdf5 fakeFile) = .ok (some ls) ∧
    treeReport treeEnv 5 false s%"f.h5" (.hdf5 realFile) = .ok (some ls') ∧
    (readTree (split '\n' (join s%"\n" ls))).2.map ReadEntry.path =
      (readTree (split '\n' (join s%"\n" ls'))).2.map ReadEntry.path ∧
    ⟨[s%"secret"], .group (some s%"NXentry"), []⟩ ∈ (readTree (split '\n' (join s%"\n" ls))).2 :=
  ⟨_, _, rfl, rfl, by decide, by decide⟩

/-! ## an example -/

mutual
/-- All names below are plain. -/
def PlainNode (env : Env) : Node → Prop
  | .group _ attrs kids => PlainAttrs attrs ∧
    (∀ v, attrs.lookup s%"NX_class" = some v → ∀ s, FirstText env v s → ' ' ∉ s) ∧ PlainKids env kids
  | .dataset _ attrs d => PlainAttrs attrs ∧ d.dtype.head? ≠ some ' '
  | .datatype _ _ => True
/-- All names of members are plain. -/
def PlainKids (env : Env) : Kids → Prop
  | .nil => True
  | .cons link _ n rest => PlainName link ∧ PlainNode env n ∧ PlainKids env rest
  | .broken link _ rest => PlainName link ∧ PlainKids env rest
end

theorem plainKids_links {env : Env} : ∀ {kids : Kids}, PlainKids env kids →
    ∀ {link kind o}, (link, kind, o) ∈ memberLinks kids →
      PlainName link ∧ ∀ n, o = some n → PlainNode env n
  | .nil, _, _, _, _, hl => by cases hl
  | .cons l k n rest, h, _, _, _, hl => by
    rw [PlainKids] at h
    rw [memberLinks] at hl
    rcases List.mem_cons.1 hl with e | hl
    · injection e with e1 e2
      injection e2 with e2 e3
      subst e1 e3
      exact ⟨h.1, fun m hm => by injection hm with hm; subst hm; exact h.2.1⟩
    · exact plainKids_links h.2.2 hl
  | .broken l k rest, h, _, _, _, hl => by
    rw [PlainKids] at h
    rw [memberLinks] at hl
    rcases List.mem_cons.1 hl with e | hl
    · injection e with e1 e2
      injection e2 with e2 e3
      subst e1 e3
      exact ⟨h.1, fun m hm => by cases hm⟩
    · exact plainKids_links h.2 hl

theorem plain_location (kind : LinkKind) : PlainAttrs (location kind) := by
  cases kind <;> simp [location, PlainAttrs]

theorem plainAttrs_append {a b : List (Str × Val)} (ha : PlainAttrs a) (hb : PlainAttrs b) :
    PlainAttrs (a ++ b) := fun x hx => (List.mem_append.1 hx).elim (ha x) (hb x)

theorem plain_unfollowed (env : Env) (kind : LinkKind) :
    PlainWhat env (unfollowedAs kind).1 ∧ PlainAttrs (unfollowedAs kind).2 := by
  cases kind with
  | soft p => exact ⟨trivial, by simp [unfollowedAs, PlainAttrs]⟩
  | hard => exact ⟨trivial, plain_location .hard⟩
  | external a b c => exact ⟨trivial, plain_location (.external a b c)⟩

/-- Plain names everywhere are enough. -/
theorem plainFile_of {env : Env} {b : Bool} {f : H5File} (ha : PlainAttrs f.attrs)
    (hk : PlainKids env f.kids) : PlainFile env b f := by
  refine ⟨ha, fun p w as h => ?_⟩
  have nil : PlainAttrs [] := by simp [PlainAttrs]
  generalize f.kids = kids at hk h
  induction h with
  | @here kids link kind o hl =>
    obtain ⟨h1, h2⟩ := plainKids_links hk hl
    refine ⟨by simpa using h1, ?_⟩
    cases hf : followed kind with
    | false =>
      have : appearance env b kind o = unfollowedAs kind := by
        unfold appearance
        rw [hf]
        cases o with
        | none => rfl
        | some n => cases n <;> rfl
      rw [this]
      exact plain_unfollowed env kind
    | true =>
      cases o with
      | none => exact plain_unfollowed env kind
      | some n =>
        have hn := h2 n rfl
        unfold appearance
        rw [hf]
        cases n with
        | group name a sub =>
          rw [PlainNode] at hn
          simp only
          split
          · exact ⟨trivial, nil⟩
          · refine ⟨?_, plainAttrs_append hn.1 (plain_location _)⟩
            rintro t (⟨_, rfl⟩ | ⟨v, s, e1, _, e3, rfl⟩)
            · simp
            · have := hn.2.1 v e1 s e3
              simpa using this
        | dataset name a d =>
          rw [PlainNode] at hn
          simp only
          split
          · exact ⟨trivial, nil⟩
          · split
            · exact ⟨trivial, plain_location _⟩
            · exact ⟨hn.2, plainAttrs_append hn.1 (plain_location _)⟩
        | datatype name a => exact ⟨trivial, nil⟩
  | within hl _ _ _ ih =>
    obtain ⟨h1, h2⟩ := plainKids_links hk hl
    have hn := h2 _ rfl
    rw [PlainNode] at hn
    obtain ⟨i1, i2⟩ := ih hn.2.2
    exact ⟨fun n hn => (List.mem_cons.1 hn).elim (fun e => e ▸ h1) (i1 n), i2⟩

theorem treeFile_plain : PlainFile treeEnv true treeFile := by
  refine plainFile_of (by simp [treeFile, PlainAttrs]) ?_
  simp only [treeFile, PlainKids, PlainNode, PlainAttrs, PlainName]
  refine ⟨by simp, ⟨by simp, ?_, by simp [DataInfo.ofVal]⟩, by simp [DataInfo.ofVal]⟩
  intro v hv s hs
  have : v = .str s%"NXentry" := by simpa [List.lookup] using hv.symm
  subst this
  rcases hs with (h | ⟨_, h, _⟩) | ⟨_, h⟩ | ⟨_, _, h, _⟩
  · injection h with h
    subst h
    decide
  all_goals cases h

/-- The hypotheses of `tree_read_back` hold for the example file. -/
example : ∃ ls, treeReport treeEnv 5 true s%"f.h5" (.hdf5 treeFile) = .ok (some ls) ∧
    ∀ r ∈ (readTree ls).2, ∃ w as, ShownAt treeEnv true treeFile.kids r.path w as ∧
      Tells treeEnv true r r.path w as :=
  by
  have h : ∃ ls, treeReport treeEnv 5 true s%"f.h5" (.hdf5 treeFile) = .ok (some ls) := ⟨_, rfl⟩
  obtain ⟨ls, h⟩ := h
  exact ⟨ls, h, (tree_read_back (by rfl) treeFile_plain h).2.1⟩

/-- What is read in the report of the example file. -/
example : ∃ ls, treeReport treeEnv 5 true s%"f.h5" (.hdf5 treeFile) = .ok (some ls) ∧
    readTree ls = ([(s%"creator", s%"\"me\"")],
      [⟨[s%"a"], .dataset s%"NX_INT64[] = ", []⟩,
       ⟨[s%"entry"], .group (some s%"NXentry"), [(s%"NX_class", s%"\"NXentry\"")]⟩,
       ⟨[s%"entry", s%"ext"], .missing, [(s%"file", s%"\"other.h5\""), (s%"path", s%"\"/data\"")]⟩,
       ⟨[s%"entry", s%"link"], .link s%"/entry/x", []⟩,
       ⟨[s%"entry", s%"soft"], .soft s%"/nowhere", []⟩,
       ⟨[s%"entry", s%"x"], .dataset s%"NX_INT64[7] = [0, 1, 2, '...', 6]",
         [(s%"units", s%"\"mm\"")]⟩]) := ⟨_, rfl, by decide +kernel⟩

end Punx
