import Verif.Spec.Reading
import Verif.Props.Listing3
import Verif.Props.Installed

/-!
# Reading definitions while sets are installed (C114)
-/

namespace Punx

open Spec

/-! ## programs that only look -/

/-- The result is `x`, if every look sees a disk with `P`. -/
def Unmoved {α : Type} (P : Disk → Prop) (x : Except PyErr α) : Look α → Prop
  | .done y => y = x
  | .look j => ∀ d, P d → Unmoved P x (j d)

theorem unmoved_bind {α β : Type} {P : Disk → Prop} {a : α} {x : Except PyErr β} {r : Look α}
    {f : α → Look β} (hr : Unmoved P (.ok a) r) (hf : Unmoved P x (f a)) : Unmoved P x (r.bind f) := by
  induction r with
  | done y => cases (show y = .ok a from hr); exact hf
  | look j ih => exact fun d hd => ih d (hr d hd)

theorem unmoved_see {α : Type} {P : Disk → Prop} {f : Disk → α} {a : α} (h : ∀ d, P d → f d = a) :
    Unmoved P (.ok a) (Look.see f) := fun d hd => by
  rw [← h d hd]; rfl

theorem unmoved_run {α : Type} {P : Disk → Prop} {x : Except PyErr α} {r : Look α} {d : Disk}
    (h : Unmoved P x r) (hd : P d) : r.run d = x := by
  induction r with
  | done y => exact h
  | look j ih => exact ih d (h d hd)

theorem unmoved_watches {ι α : Type} [DecidableEq ι] {P : Disk → Prop} {x y : Except PyErr α}
    {r : Look α} (h : Unmoved P x r) {d e : Disk} {ps qs : ι → Prog}
    (hp : ∀ e qs, Arrives d ps e qs → P e) (hw : Watches d ps r e qs (.done y)) : y = x := by
  induction r generalizing d ps with
  | done z =>
    obtain ⟨h1, _⟩ := watches_done hw
    cases h1
    exact h
  | look j ih =>
    obtain ⟨e1, qs1, h1, h2⟩ := watches_look hw
    exact ih e1 (h e1 (hp _ _ h1)) (fun e qs he => hp _ _ (h1.trans he)) h2

theorem watches_before {ι α : Type} [DecidableEq ι] {d e f : Disk} {ps qs rs : ι → Prog}
    {r r' : Look α} (h : Arrives d ps e qs) (h' : Watches e qs r f rs r') :
    Watches d ps r f rs r' := by
  induction h' with
  | start =>
    clear r'
    induction h with
    | start => exact .start
    | next _ hs ih => exact .other ih hs
  | other _ hs ih => exact .other ih hs
  | look _ ih => exact .look ih

theorem watches_trans {ι α : Type} [DecidableEq ι] {d e f : Disk} {ps qs rs : ι → Prog}
    {r r' r'' : Look α} (h : Watches d ps r e qs r') (h' : Watches e qs r' f rs r'') :
    Watches d ps r f rs r'' := by
  induction h' with
  | start => exact h
  | other _ hs ih => exact .other ih hs
  | look _ ih => exact .look ih

/-- One program after the other: the second begins when the first has ended. -/
theorem watches_bind {ι α β : Type} [DecidableEq ι] {d e : Disk} {ps qs : ι → Prog} {r : Look α}
    {f : α → Look β} {b : β} (h : Watches d ps (r.bind f) e qs (.done (.ok b))) :
    ∃ a e1 qs1, Watches d ps r e1 qs1 (.done (.ok a)) ∧
      Watches e1 qs1 (f a) e qs (.done (.ok b)) := by
  induction r generalizing d ps with
  | done y =>
    cases y with
    | error y =>
      obtain ⟨h1, _⟩ := watches_done (show Watches d ps (.done (.error y)) e qs _ from h)
      cases h1
    | ok a => exact ⟨a, d, ps, .start, h⟩
  | look j ih =>
    obtain ⟨e1, qs1, h1, h2⟩ := watches_look (show Watches d ps (.look _) e qs _ from h)
    obtain ⟨a, e2, qs2, h3, h4⟩ := ih e1 h2
    refine ⟨a, e2, qs2, ?_, h4⟩
    exact watches_trans (.look (watches_before h1 .start)) h3

/-! ## what is read -/

theorem dirName_eq (c : Category) : c.dirName = categoryDir c := by cases c <;> rfl

theorem text_eq (d : Disk) (name : Str) (q : FPath) :
    d.text (name :: q) = textAt (inSet d name) q := rfl

/-- The names in a directory, sorted. -/
def namesIn (ls : Disk → FPath → List Str) (d : Disk) (name : Str) (c : Category) :
    Option (List Str) :=
  if d.isDir [name, categoryDir c] then some (sortBy strLe (ls d [name, categoryDir c])) else none

/-- What is read if nothing changes. -/
def setAt (ls : Disk → FPath → List Str) (lx : Lxml) (d : Disk) (name : Str) : SetDir :=
  ⟨d.has [name], (textAt (inSet d name) [s%"nxdl.xsd"]).map lx.xsd,
    (textAt (inSet d name) [s%"nxdlTypes.xsd"]).map lx.xsd, fun c =>
    (namesIn ls d name c).map fun ns => ns.map fun n =>
      ⟨n, (textAt (inSet d name) [categoryDir c, n]).bind lx.xml⟩⟩

theorem sorted_unique {l l' : List Str} (hl : l.Nodup) (hl' : l'.Nodup) (h : ∀ n, n ∈ l ↔ n ∈ l') :
    sortBy strLe l = sortBy strLe l' := by
  have hp : (sortBy strLe l).Perm (sortBy strLe l') :=
    ((sortBy_perm _).trans ((List.perm_ext_iff_of_nodup hl hl').2 h)).trans (sortBy_perm _).symm
  have hs : ∀ l : List Str, (sortBy strLe l).Pairwise (fun a b => strLe a b = true) := fun l =>
    sortBy_sorted (le := strLe) (fun a b => strLe_total a b) (fun _ _ _ h1 h2 => strLe_trans h1 h2) l
  exact hp.eq_of_pairwise (le := fun a b => strLe a b = true)
    (fun a b _ _ h1 h2 => strLe_antisymm h1 h2) (hs l) (hs l')

theorem setAt_dirOf {ls : Disk → FPath → List Str} {lx : Lxml} {d : Disk} {name : Str}
    (h : ListsSet ls d name) : DirOf lx (inSet d name) (setAt ls lx d name) := by
  have hdir : ∀ c, d.isDir [name, categoryDir c] = true ↔ inSet d name [categoryDir c] = some .dir :=
    fun c => isDir_iff
  have hlist : ∀ c fs, (setAt ls lx d name).listing c = some fs →
      fs = (sortBy strLe (ls d [name, categoryDir c])).map fun n =>
        ⟨n, (textAt (inSet d name) [categoryDir c, n]).bind lx.xml⟩ := by
    intro c fs hf
    simp only [setAt, namesIn] at hf
    split at hf
    · cases hf; rfl
    · cases hf
  refine ⟨?_, rfl, rfl, ?_, ?_, ?_, ?_⟩
  · show (d [name]).isSome = true ↔ d [name] ≠ none
    cases d [name] <;> simp
  · intro c
    simp only [setAt, namesIn]
    rw [Ne, ← hdir]
    split <;> simp_all
  · intro c fs hf
    rw [hlist c fs hf, List.map_map]
    show ((sortBy strLe (ls d [name, categoryDir c])).map fun n => n).Nodup
    rw [List.map_id']
    exact (sortBy_perm _).nodup_iff.2 (h c).1
  · intro c fs hf n
    rw [hlist c fs hf]
    show _ ↔ d ([name, categoryDir c] ++ [n]) ≠ none
    rw [← (h c).2 n]
    constructor
    · rintro ⟨f, hm, rfl⟩
      obtain ⟨n, hn, rfl⟩ := List.mem_map.1 hm
      exact (mem_sortBy).1 hn
    · intro hn
      exact ⟨_, List.mem_map.2 ⟨n, (mem_sortBy).2 hn, rfl⟩, rfl⟩
  · intro c fs hf f hm
    rw [hlist c fs hf] at hm
    obtain ⟨n, hn, rfl⟩ := List.mem_map.1 hm
    rfl

/-- Disks on which the set is as on `d`. -/
def SameSet (ls : Disk → FPath → List Str) (d : Disk) (name : Str) (e : Disk) : Prop :=
  SameBelow e d name ∧ ListsSet ls e name

theorem namesIn_same {ls : Disk → FPath → List Str} {d e : Disk} {name : Str}
    (hd : ListsSet ls d name) (h : SameSet ls d name e) (c : Category) :
    namesIn ls e name c = namesIn ls d name c := by
  unfold namesIn
  rw [show e.isDir [name, categoryDir c] = d.isDir [name, categoryDir c] by
    simp only [Disk.isDir]; rw [h.1 [categoryDir c]]]
  rw [sorted_unique (h.2 c).1 (hd c).1 fun n => ?_]
  rw [(h.2 c).2, (hd c).2]
  show e (name :: [categoryDir c, n]) ≠ none ↔ _
  rw [h.1]
  rfl

theorem inSet_same {ls : Disk → FPath → List Str} {d e : Disk} {name : Str}
    (h : SameSet ls d name e) : inSet e name = inSet d name := funext h.1

theorem unmoved_category {ls : Disk → FPath → List Str} {d : Disk} {name : Str}
    (hd : ListsSet ls d name) (c : Category) :
    Unmoved (SameSet ls d name) (.ok (namesIn ls d name c)) (categoryLook ls name c) := by
  intro e he
  have hdir : e.isDir [name, c.dirName] = d.isDir [name, categoryDir c] := by
    rw [dirName_eq]; simp only [Disk.isDir]; rw [he.1 [categoryDir c]]
  by_cases h : d.isDir [name, categoryDir c] = true
  · beta_reduce
    rw [if_pos (hdir.trans h)]
    refine unmoved_see fun e' he' => ?_
    rw [← namesIn_same hd he' c, dirName_eq]
    rfl
  · beta_reduce
    rw [if_neg (hdir ▸ h)]
    show Except.ok _ = _
    rw [namesIn, if_neg h]

theorem unmoved_files {ls : Disk → FPath → List Str} {lx : Lxml} {d : Disk} {name : Str}
    (c : Category) (ns : List Str) :
    Unmoved (SameSet ls d name) (.ok (ns.map fun n =>
      (⟨n, (textAt (inSet d name) [categoryDir c, n]).bind lx.xml⟩ : NxdlFile)))
      (filesLook lx.xml name c ns) := by
  induction ns with
  | nil => rfl
  | cons n ns ih =>
    rw [filesLook]
    refine unmoved_bind (unmoved_see (a := (textAt (inSet d name) [categoryDir c, n]).bind lx.xml)
      fun e he => ?_) (unmoved_bind ih rfl)
    rw [← inSet_same he, dirName_eq]
    rfl

theorem unmoved_files? {ls : Disk → FPath → List Str} {lx : Lxml} {d : Disk} {name : Str}
    (c : Category) (o : Option (List Str)) :
    Unmoved (SameSet ls d name) (.ok (o.map fun ns => ns.map fun n =>
      (⟨n, (textAt (inSet d name) [categoryDir c, n]).bind lx.xml⟩ : NxdlFile)))
      (filesLook? lx.xml name c o) := by
  cases o with
  | none => rfl
  | some ns => exact unmoved_bind (unmoved_files c ns) rfl

theorem unmoved_read {ls : Disk → FPath → List Str} {lx : Lxml} {d : Disk} {name : Str}
    (hd : ListsSet ls d name) :
    Unmoved (SameSet ls d name) (.ok (setAt ls lx d name)) (readSetDir ls lx.xsd lx.xml name) := by
  unfold readSetDir
  refine unmoved_bind (unmoved_see (a := d.has [name]) fun e he => ?_) <|
    unmoved_bind (unmoved_see (a := (textAt (inSet d name) [s%"nxdl.xsd"]).map lx.xsd)
      fun e he => ?_) <|
    unmoved_bind (unmoved_category hd _) <| unmoved_bind (unmoved_category hd _) <|
    unmoved_bind (unmoved_category hd _) <|
    unmoved_bind (unmoved_see (a := (textAt (inSet d name) [s%"nxdlTypes.xsd"]).map lx.xsd)
      fun e he => ?_) <|
    unmoved_bind (unmoved_files? _ _) <| unmoved_bind (unmoved_files? _ _) <|
    unmoved_bind (unmoved_files? _ _) ?_
  · simp only [Disk.has]; rw [he.1 []]
  · rw [text_eq, inSet_same he]
  · rw [text_eq, inSet_same he]
  · show Except.ok _ = Except.ok _
    congr 1
    unfold setAt
    congr 1
    funext c
    cases c <;> rfl

/-! ## C114 -/

/-- **C114**: the directory of a set is read when nothing else uses the disk.  What is read is what is
there (`DirOf`, on which the theorems about `Model/Process.lean` build). -/
theorem reading_alone {ls : Disk → FPath → List Str} {lx : Lxml} {d : Disk} {name : Str}
    (hl : ListsSet ls d name) :
    ∃ sd, (readSetDir ls lx.xsd lx.xml name).run d = .ok sd ∧ DirOf lx (inSet d name) sd :=
  ⟨_, unmoved_run (unmoved_read hl) ⟨fun _ => rfl, hl⟩, setAt_dirOf hl⟩

theorem reading_same {ι : Type} [DecidableEq ι] {ls : Disk → FPath → List Str} {lx : Lxml}
    {name : Str} {d e : Disk} {ps qs : ι → Prog}
    (hl : ∀ e qs, Arrives d ps e qs → ListsSet ls e name)
    (hs : ∀ e qs, Arrives d ps e qs → SameBelow e d name) {x : Except PyErr SetDir}
    (h : Watches d ps (readSetDir ls lx.xsd lx.xml name) e qs (.done x)) :
    ∃ sd, x = .ok sd ∧ DirOf lx (inSet d name) sd :=
  ⟨_, unmoved_watches (unmoved_read (hl _ _ .start)) (fun _ _ he => ⟨hs _ _ he, hl _ _ he⟩) h,
    setAt_dirOf (hl _ _ .start)⟩

/-- **C114** (what holds): definitions are read while any sets are installed or updated, but no
installation has to do with the set that is read.  What is read is what is there from the start to
the end. -/
theorem reading_others_partial {ι : Type} [DecidableEq ι] {us : ι → Use} (ht : ∀ i, (us i).Tidy)
    {d e e' : Disk} {qs qs' : ι → Prog} (h0 : Arrives d (fun i => (us i).proc) e qs) {name : Str}
    (hk : ∀ i, ¬ (us i).Dirs name) {ls : Disk → FPath → List Str} {lx : Lxml}
    (hl : ∀ e qs, Arrives d (fun i => (us i).proc) e qs → ListsSet ls e name)
    {x : Except PyErr SetDir}
    (h : Watches e qs (readSetDir ls lx.xsd lx.xml name) e' qs' (.done x)) :
    ∃ sd, x = .ok sd ∧ DirOf lx (inSet d name) sd := by
  have same : ∀ {e qs}, Arrives d (fun i => (us i).proc) e qs → SameBelow e d name := by
    intro e qs ha q
    refine installs_elsewhere_partial ht ha fun i hi => ?_
    obtain ⟨k', r, he, hd⟩ := hi
    cases he
    exact hk i hd
  obtain ⟨sd, hx, hsd⟩ := reading_same (fun a as ha => hl a as (h0.trans ha))
    (fun a as ha q => (same (h0.trans ha) q).trans (same h0 q).symm) h
  refine ⟨sd, hx, ?_⟩
  rw [show inSet d name = inSet e name from funext fun q => (same h0 q).symm]
  exact hsd

/-- **C114** (what holds): definitions are read while different sets are installed.  If the directory
of a set that was not there before is there when the reading begins, then what is read gives exactly
the definitions of the archive. -/
theorem reading_new_partial {ι : Type} [DecidableEq ι] {us : ι → Use} (ht : ∀ i, (us i).Tidy)
    (ha : Apart us) {d e e' : Disk} {qs qs' : ι → Prog}
    (h0 : Arrives d (fun i => (us i).proc) e qs) {i : ι} {z : Archive} {top : Str}
    (hz : (us i).net 0 = .archive z) (ho : OneDirectory z top) (hne : top ≠ (us i).name)
    (hd : Gone d (us i).name) (htop : Gone d top) (hp : e [(us i).name] ≠ none)
    {ls : Disk → FPath → List Str} {lx : Lxml}
    (hl : ∀ e qs, Arrives d (fun i => (us i).proc) e qs → ListsSet ls e (us i).name)
    {x : Except PyErr SetDir}
    (h : Watches e qs (readSetDir ls lx.xsd lx.xml (us i).name) e' qs' (.done x)) {sa : SetDir}
    (hsa : ArchiveDir lx z top sa) (lib : Lib) (pattern : Str → Pat) :
    ∃ sd, x = .ok sd ∧ ∀ mgr, OwnDefinitions lib pattern sd mgr ↔ OwnDefinitions lib pattern sa mgr := by
  obtain ⟨sd, hx, hsd⟩ := reading_same (fun a as haa => hl a as (h0.trans haa))
    (fun a as haa => (new_appears ht ha hz ho hne hd h0 haa hp).1) h
  refine ⟨sd, hx, fun mgr => ?_⟩
  obtain ⟨_, _, hr⟩ := new_appears ht ha hz ho hne hd h0 .start hp
  obtain ⟨h2, h3⟩ := installs_independent ht ha h0 i hr
  have hsd' : DirOf lx (fun q => applyAll d ((us i).alone d).ops ((us i).name :: q)) sd := by
    rw [show (fun q => applyAll d ((us i).alone d).ops ((us i).name :: q)) = inSet e (us i).name from
      funext fun q => (h3 _ ⟨_, _, rfl, Or.inl rfl⟩).symm]
    exact hsd
  exact installed_definitions hz ho hne (fun q hq => absurd (hd q) hq) (Or.inr (hd [])) htop h2.symm
    rfl hsd' hsa

theorem chooseSet_mem {sets : Dict Str FileSet} {ref : Option Str} {k : Str}
    (h : chooseSet sets ref = .ok k) : ∃ s, Dict.get? sets k = some s := by
  have key : ∀ {k}, k ∈ (sortBy (fun a b : Str × FileSet => strLe (dateText b.2) (dateText a.2))
      sets).map (·.1) → ∃ s, Dict.get? sets k = some s := by
    intro k hk
    obtain ⟨kv, h1, h2⟩ := List.mem_map.1 hk
    have h3 := (mem_sortBy).1 h1
    cases hg : Dict.get? sets k with
    | some s => exact ⟨s, rfl⟩
    | none => exact absurd (List.mem_map.2 ⟨kv, h3, h2⟩) (Dict.get?_eq_none.1 hg)
  unfold chooseSet at h
  split at h
  · cases h
  · dsimp only at h
    split at h
    · cases h
    · rename_i r hr
      cases h
      split at hr
      · rename_i r' hr'
        cases hr
        split at hr'
        · split at hr'
          · rename_i hc
            cases hr'
            exact key (by simpa using hc)
          · cases hr'
        · cases hr'
      · exact key (List.mem_of_head? hr)

theorem use_parts {ι : Type} [DecidableEq ι] {d e : Disk} {ps qs : ι → Prog}
    {ls : Disk → FPath → List Str} {lx : Lxml} {path : Str} {names : List Str} {ref : Option Str}
    {k : Str} {sd : SetDir}
    (h : Watches d ps (useSet ls lx.xsd lx.xml path names ref) e qs (.done (.ok (k, sd)))) :
    ∃ sets e1 qs1 e2 qs2, Watches d ps (listLook path names []) e1 qs1 (.done (.ok sets)) ∧
      chooseSet sets ref = .ok k ∧
      Watches e1 qs1 (readSetDir ls lx.xsd lx.xml k) e2 qs2 (.done (.ok sd)) := by
  obtain ⟨sets, e1, qs1, h1, h2⟩ := watches_bind h
  cases hc : chooseSet sets ref with
  | error y =>
    rw [hc] at h2
    obtain ⟨h3, _⟩ := watches_done h2
    cases h3
  | ok k' =>
    rw [hc] at h2
    obtain ⟨sd', e2, qs2, h3, h4⟩ := watches_bind h2
    obtain ⟨h5, _⟩ := watches_done h4
    cases h5
    exact ⟨sets, e1, qs1, e2, qs2, h1, hc, h3⟩

/-- **C114** (what holds): sets are listed, one of them is selected and read, while any sets are
installed or updated.  If no installation has to do with the set that was selected, then it was there
all the time, and what was read is what is there. -/
theorem use_others_partial {ι : Type} [DecidableEq ι] {us : ι → Use} (ht : ∀ i, (us i).Tidy)
    {d e e' : Disk} {qs qs' : ι → Prog} (h0 : Arrives d (fun i => (us i).proc) e qs) {name : Str}
    (hk : ∀ i, ¬ (us i).Dirs name) {ls : Disk → FPath → List Str} {lx : Lxml}
    (hl : ∀ e qs, Arrives d (fun i => (us i).proc) e qs → ListsSet ls e name) {path : Str}
    {names : List Str} {ref : Option Str} {sd : SetDir}
    (h : Watches e qs (useSet ls lx.xsd lx.xml path names ref) e' qs' (.done (.ok (name, sd)))) :
    d [name] = some .dir ∧ DirOf lx (inSet d name) sd := by
  obtain ⟨sets, e1, qs1, e2, qs2, h1, h2, h3⟩ := use_parts h
  obtain ⟨s, hs⟩ := chooseSet_mem h2
  obtain ⟨sd', hx, hsd⟩ := reading_others_partial ht (h0.trans (watches_arrives h1)) hk hl h3
  cases hx
  exact ⟨((listing_others_partial ht h0 h1 hk s).1 hs).2.1, hsd⟩

/-- **C114** (what holds): sets are listed, one of them is selected and read, while different sets are
installed.  If the set that was selected is a new one, then what was read gives exactly the
definitions of its archive. -/
theorem use_new_partial {ι : Type} [DecidableEq ι] {us : ι → Use} (ht : ∀ i, (us i).Tidy)
    (ha : Apart us) {d e e' : Disk} {qs qs' : ι → Prog}
    (h0 : Arrives d (fun i => (us i).proc) e qs) {i : ι} {z : Archive} {top : Str}
    (hz : (us i).net 0 = .archive z) (ho : OneDirectory z top) (hne : top ≠ (us i).name)
    (hd : Gone d (us i).name) (htop : Gone d top) {ls : Disk → FPath → List Str} {lx : Lxml}
    (hl : ∀ e qs, Arrives d (fun i => (us i).proc) e qs → ListsSet ls e (us i).name) {path : Str}
    {names : List Str} {ref : Option Str} {sd : SetDir}
    (h : Watches e qs (useSet ls lx.xsd lx.xml path names ref) e' qs'
      (.done (.ok ((us i).name, sd)))) {sa : SetDir}
    (hsa : ArchiveDir lx z top sa) (lib : Lib) (pattern : Str → Pat) (mgr : Manager) :
    OwnDefinitions lib pattern sd mgr ↔ OwnDefinitions lib pattern sa mgr := by
  obtain ⟨sets, e1, qs1, e2, qs2, h1, h2, h3⟩ := use_parts h
  obtain ⟨s, hs⟩ := chooseSet_mem h2
  obtain ⟨_, hc, _⟩ := (listing_new_partial ht ha h0 h1 hz ho hne hd).1 s hs
  have hp : e1 [(us i).name] ≠ none := by rw [hc.1]; simp
  obtain ⟨sd', hx, hsd⟩ := reading_new_partial ht ha (h0.trans (watches_arrives h1)) hz ho hne hd htop
    hp hl h3 hsa lib pattern
  cases hx
  exact hsd mgr

end Punx
