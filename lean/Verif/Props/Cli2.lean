import Verif.Model.Cli
import Verif.Props.Cache
import Verif.Props.Install3

/-!
# C58, C72, C73, C74: `punx tree` and `punx install`
-/

namespace Punx
open Spec

/-! ## C58: category of an NXDL file -/

/-- **C58**: the category is found for exactly the three documented values of the attribute. -/
theorem category_iff (st : XmlState) (p : Str) :
    determineCategory st = .ok p ↔
      ∃ c, st = .doc (some c) ∧ (c, p) ∈ [(s%"application", s%"applications"),
        (s%"base", s%"base_classes"), (s%"contributed", s%"contributed_definitions")] := by
  constructor
  · intro h
    unfold determineCategory at h
    split at h
    · cases h
    · cases h
    · cases h
    · rename_i c
      split at h
      · cases h
      · rename_i q hq
        cases h
        exact ⟨c, rfl, Dict.mem_of_get? hq⟩
  · rintro ⟨c, rfl, h⟩
    simp only [List.mem_cons, Prod.mk.injEq, List.not_mem_nil, or_false] at h
    rcases h with ⟨rfl, rfl⟩ | ⟨rfl, rfl⟩ | ⟨rfl, rfl⟩ <;> rfl

/-- **C58**: any other value, and a missing one, is a `ValueError`. -/
theorem category_error (c : Option Str)
    (h : c ∉ [some s%"application", some s%"base", some s%"contributed"]) :
    determineCategory (.doc c) = .error .valueError := by
  cases c with
  | none => rfl
  | some c =>
    unfold determineCategory
    simp only [List.mem_cons, Option.some.injEq, List.not_mem_nil, or_false, not_or] at h
    have : Dict.get? categoryTable c = none := by
      simp [categoryTable, Dict.get?, Ne.symm h.1, Ne.symm h.2.1, Ne.symm h.2.2]
    simp only [this]

example : determineCategory (.doc (some s%"base")) = .ok s%"base_classes" := rfl
example : determineCategory (.doc (some s%"bases")) = .error .valueError :=
  category_error _ (by decide)

/-! ## C73: `punx tree` -/

/-- **C73** (partial: what is missing is a message, see `tree_missing`): for files that are not NXDL
files the command prints exactly the lines of the tree report. -/
theorem tree_prints_partial {w : World} {x : NxdlWorld} {infile : Str} {showAttrs : Bool} {shown : Int}
    (h : ¬ s%".nxdl.xml" <:+ infile) (ls : List Str) :
    Act.tree ls ∈ (funcTree w x infile showAttrs shown).log ↔
      treeReport w.env shown showAttrs (w.abspath infile) (w.files (w.abspath infile)) = .ok (some ls) ∨
      (w.files (w.abspath infile) = .missing ∧ ls = []) := by
  unfold funcTree
  rw [if_neg (by simpa [endsWith] using h)]
  have hm : treeReport w.env shown showAttrs (w.abspath infile) (w.files (w.abspath infile)) = .ok none ↔
      w.files (w.abspath infile) = .missing := by
    unfold treeReport
    cases w.files (w.abspath infile) with
    | missing => simp
    | notHdf5 => simp
    | hdf5 f =>
      simp only [reduceCtorEq, iff_false]
      intro h
      repeat' split at h
      all_goals cases h
  cases ht : treeReport w.env shown showAttrs (w.abspath infile) (w.files (w.abspath infile)) with
  | error e =>
    rw [ht] at hm
    simp only [reduceCtorEq, false_iff] at hm
    simp [W.fail, hm]
  | ok r =>
    cases r with
    | none =>
      have := hm.1 ht
      simp [W.tell, this]
    | some l =>
      have hm' : w.files (w.abspath infile) ≠ .missing := by
        intro h'
        have := ht.symm.trans (hm.2 h')
        cases this
      simp only [W.tell, List.mem_singleton, Act.tree.injEq, Except.ok.injEq, Option.some.injEq, hm',
        false_and, or_false]
      exact eq_comm

/-- **C73** (violated): for a file that is not there the command ends normally, without a message; for
a file that is no HDF5 file it ends with an exception that is not caught. -/
theorem tree_missing (w : World) (x : NxdlWorld) {infile : Str} (showAttrs : Bool) (shown : Int)
    (h : ¬ s%".nxdl.xml" <:+ infile) :
    (w.files (w.abspath infile) = .missing →
      funcTree w x infile showAttrs shown = W.tell (.tree [])) ∧
    (w.files (w.abspath infile) = .notHdf5 →
      funcTree w x infile showAttrs shown = W.fail .osError) := by
  have hn : endsWith infile s%".nxdl.xml" = false :=
    Bool.eq_false_iff.2 (by simpa [endsWith] using h)
  constructor <;> intro hf <;> simp [funcTree, hn, treeReport, hf]

/-- **C73** (violated): for an NXDL file that is not there the command ends with an `AttributeError`
that is not caught. -/
theorem tree_nxdl_missing (w : World) (x : NxdlWorld) {infile : Str} (showAttrs : Bool) (shown : Int)
    (h : s%".nxdl.xml" <:+ infile) (hf : x.xml (w.abspath infile) = .missing) :
    funcTree w x infile showAttrs shown = W.fail .attributeError := by
  have hn : endsWith infile s%".nxdl.xml" = true := by simpa [endsWith] using h
  simp [funcTree, hn, hf, nxdlTreeView, nxdlTreeReport]

/-! ## C72: several sets -/

theorem andThen_ops {α β : Type} (d : Disk) (x : Deed α) (f : α → Disk → Deed β) :
    (∃ a, x.res = .ok a ∧ (x.andThen d f).ops = x.ops ++ (f a (applyAll d x.ops)).ops ∧
      (x.andThen d f).res = (f a (applyAll d x.ops)).res) ∨
    (∃ e, x.res = .error e ∧ (x.andThen d f).ops = x.ops ∧ (x.andThen d f).res = .error e) := by
  unfold Deed.andThen
  cases h : x.res with
  | error e => right; exact ⟨e, rfl, rfl, rfl⟩
  | ok a => left; exact ⟨a, rfl, rfl, rfl⟩

/-- **C72**: wherever `punx install a b c` stops (also with an error) each of the named sets, none of
which was there before, is either not there or complete; other sets are untouched. -/
theorem install_many {net : Nat → Nat → Answer} {rm : Nat → Disk → Removal} {w : Nat → Str}
    {update : Bool} {z : Nat → Archive} {top : Nat → Str} {names : List Str} {d s : Disk} {k : Nat}
    (hz : ∀ i, net i 0 = .archive (z i)) (ho : ∀ i, OneDirectory (z i) (top i))
    (ht : ∀ i, top i ∉ names) (hn : names.Nodup) (hd : ∀ n ∈ names, Gone d n)
    (hs : Stops d (installAll net rm w update k d names).ops s) :
    (∀ i n, names[i]? = some n → Gone s n ∨ Complete (z (k + i)) (top (k + i)) n s [n]) ∧
    (∀ o, o ∉ names → (∀ i, o ≠ top i) → SameBelow s d o) := by
  induction names generalizing d k with
  | nil =>
    have := stops_nil hs
    subst this
    exact ⟨fun i n h => (by simp at h), fun o _ _ q => rfl⟩
  | cons name names ih =>
    have hne : top k ≠ name := fun h => ht k (by simp [h])
    have hnn : name ∉ names := (List.nodup_cons.1 hn).1
    have first : ∀ {s'}, Stops d (downloadFileSet (net k) (rm k d) (w k) d name update).ops s' →
        (Gone s' name ∨ Complete (z k) (top k) name s' [name]) ∧
        (∀ o, o ≠ name → o ≠ top k → SameBelow s' d o) := by
      intro s' h
      refine ⟨?_, fun o h1 h2 => other_sets_untouched (hz k) (ho k) hne h h1 h2⟩
      rcases first_install_atomic (hz k) (ho k) hne (hd name (by simp)) h with h | h
      · exact Or.inl h
      · exact Or.inr h.1
    have hearly : Stops d (downloadFileSet (net k) (rm k d) (w k) d name update).ops s →
        (∀ i n, (name :: names)[i]? = some n →
          Gone s n ∨ Complete (z (k + i)) (top (k + i)) n s [n]) ∧
        (∀ o, o ∉ name :: names → (∀ i, o ≠ top i) → SameBelow s d o) := by
      intro h
      obtain ⟨h1, h2⟩ := first h
      refine ⟨?_, fun o hx hi => h2 o (fun e => hx (by simp [e])) (hi k)⟩
      intro i n hi
      cases i with
      | zero =>
        simp only [List.getElem?_cons_zero, Option.some.injEq] at hi
        subst hi
        exact h1
      | succ i =>
        simp only [List.getElem?_cons_succ] at hi
        have hmem := List.mem_of_getElem? hi
        left
        intro q
        rw [h2 n (fun e => hnn (e ▸ hmem)) (fun e => ht k (by simp [← e, hmem])) q]
        exact hd n (List.mem_cons_of_mem _ hmem) q
    rw [installAll] at hs
    rcases andThen_ops d (downloadFileSet (net k) (rm k d) (w k) d name update)
      (fun _ d' => installAll net rm w update (k + 1) d' names) with ⟨a, _, hops, _⟩ | ⟨e, _, hops, _⟩
    · rw [hops, stops_append] at hs
      rcases hs with hs | hs
      · exact hearly hs
      · obtain ⟨h1, h2⟩ := first (stops_end d _)
        have hsame : ∀ n ∈ names, SameBelow (applyAll d
            (downloadFileSet (net k) (rm k d) (w k) d name update).ops) d n := fun n hmem =>
          h2 n (fun e => hnn (e ▸ hmem)) (fun e => ht k (by simp [← e, hmem]))
        obtain ⟨i1, i2⟩ := ih (fun i h => ht i (List.mem_cons_of_mem _ h)) (List.nodup_cons.1 hn).2
          (fun n hmem q => by rw [hsame n hmem q]; exact hd n (List.mem_cons_of_mem _ hmem) q) hs
        refine ⟨?_, ?_⟩
        · intro i n hi
          cases i with
          | zero =>
            simp only [List.getElem?_cons_zero, Option.some.injEq] at hi
            subst hi
            have hb : SameBelow s (applyAll d
                (downloadFileSet (net k) (rm k d) (w k) d name update).ops) name :=
              i2 name hnn (fun i e => ht i (by simp [← e]))
            rcases h1 with h1 | h1
            · left
              intro q
              rw [hb q]; exact h1 q
            · right
              exact complete_congr (a := [name]) (b := [name]) (fun q => hb q) h1
          | succ i =>
            simp only [List.getElem?_cons_succ] at hi
            have := i1 i n hi
            rwa [show k + 1 + i = k + (i + 1) by omega] at this
        · intro o hx hi q
          rw [i2 o (fun h => hx (List.mem_cons_of_mem _ h)) hi q]
          exact h2 o (fun e => hx (by simp [e])) (hi k) q
    · rw [hops] at hs
      exact hearly hs

/-- **C72**: if it reports success then all the named sets are complete. -/
theorem install_many_success {net : Nat → Nat → Answer} {rm : Nat → Disk → Removal} {w : Nat → Str}
    {update : Bool} {z : Nat → Archive} {top : Nat → Str} {names : List Str} {d : Disk} {k : Nat}
    (hz : ∀ i, net i 0 = .archive (z i)) (ho : ∀ i, OneDirectory (z i) (top i))
    (ht : ∀ i, top i ∉ names) (hn : names.Nodup) (hd : ∀ n ∈ names, Gone d n)
    (hres : (installAll net rm w update k d names).res = .ok ()) :
    ∀ i n, names[i]? = some n → Complete (z (k + i)) (top (k + i)) n
      (applyAll d (installAll net rm w update k d names).ops) [n] := by
  induction names generalizing d k with
  | nil => intro i n h; simp at h
  | cons name names ih =>
    have hne : top k ≠ name := fun h => ht k (by simp [h])
    have hnn : name ∉ names := (List.nodup_cons.1 hn).1
    rw [installAll] at hres ⊢
    rcases andThen_ops d (downloadFileSet (net k) (rm k d) (w k) d name update)
      (fun _ d' => installAll net rm w update (k + 1) d' names) with
      ⟨a, hok, hops, hres'⟩ | ⟨e, _, _, hres'⟩
    · rw [hops, applyAll_append]
      rw [hres'] at hres
      have hgone : ∀ n ∈ names, Gone (applyAll d
          (downloadFileSet (net k) (rm k d) (w k) d name update).ops) n := fun n hmem q => by
        rw [other_sets_untouched (hz k) (ho k) hne (stops_end d _) (fun e => hnn (e ▸ hmem))
          (fun e => ht k (by simp [← e, hmem])) q]
        exact hd n (List.mem_cons_of_mem _ hmem) q
      intro i n hi
      cases i with
      | zero =>
        simp only [List.getElem?_cons_zero, Option.some.injEq] at hi
        subst hi
        have h0 := (install_success_partial (hz k) (ho k) hne
          (rm := rm k d) (w := w k) (replace := update)
          (fun q hq => absurd (hd name (by simp) q) hq) (Or.inr (hd name (by simp) [])) hok rfl).1
        refine complete_congr (fun q => ?_) h0
        exact (install_many hz ho (fun i h => ht i (List.mem_cons_of_mem _ h))
          (List.nodup_cons.1 hn).2 hgone (stops_end _ _)).2 name hnn (fun i e => ht i (by simp [← e])) q
      | succ i =>
        simp only [List.getElem?_cons_succ] at hi
        have := ih (fun i h => ht i (List.mem_cons_of_mem _ h)) (List.nodup_cons.1 hn).2 hgone hres i n hi
        rwa [show k + 1 + i = k + (i + 1) by omega] at this
    · rw [hres'] at hres
      cases hres

/-- Two sets at once. -/
example : (installAll (fun _ => goodNet) (fun _ _ => []) (fun _ => s%"today") false 0 emptyDisk
    [s%"main", s%"other"]).res = .ok () := by rfl

example : (∀ i : Nat, goodNet i = .archive someArchive) ∧
    (s%"definitions-main" ∉ [s%"main", s%"other"]) ∧ Gone emptyDisk s%"main" :=
  ⟨fun _ => rfl, by decide, fun q => rfl⟩

/-! ## C74: the default file set that is reported -/

/-- The cache of the package with one set. -/
def packageCache : CacheDir :=
  ⟨s%"/lib/punx/cache", [s%"v3.3"], fun p =>
    if p = [s%"v3.3"] then some .dir
    else if p = [s%"v3.3", infoName] then
      some (.file (.json [(s%"ref", s%"v3.3"), (s%"sha", s%"9285af9"),
        (s%"last_modified", s%"2017-07-12 10:41:12")]))
    else none⟩

theorem install_reports_old :
    (funcInstall packageCache ⟨s%"/home/me/.config/punx", [], emptyDisk⟩ [s%"main"]
      (fun _ => goodNet) (fun _ _ => []) (fun _ => s%"today") false [s%"main"]).toOption.map
      (fun r => (r.1.map (fun row => (row.name, row.date)), r.2)) =
    some ([(s%"v3.3", s%"2017-07-12 10:41:12"), (s%"main", s%"2021-12-17 13:09:18")],
      some s%"v3.3") := by rfl

/-- **C74** (violated): the default set that `punx install` reports is the one from before the
installation, not the newest set. -/
theorem default_not_updated :
    ¬ ∀ (source user : CacheDir) (listing : List Str) (net : Nat → Nat → Answer)
        (rm : Nat → Disk → Removal) (w : Nat → Str) (update : Bool) (names : List Str)
        (rows : List CacheRow) (r : Str),
        funcInstall source user listing net rm w update names = .ok (rows, some r) →
        ∃ row ∈ rows, row.name = r ∧ ∀ row' ∈ rows, strLe row'.date row.date = true := by
  intro h
  have hr := install_reports_old
  cases hf : funcInstall packageCache ⟨s%"/home/me/.config/punx", [], emptyDisk⟩ [s%"main"]
      (fun _ => goodNet) (fun _ _ => []) (fun _ => s%"today") false [s%"main"] with
  | error e => rw [hf] at hr; cases hr
  | ok x =>
    obtain ⟨rows, dflt⟩ := x
    rw [hf] at hr
    simp only [Except.toOption, Option.map_some, Option.some.injEq, Prod.mk.injEq] at hr
    obtain ⟨h1, h2⟩ := hr
    subst h2
    obtain ⟨row, hrow, hname, hmax⟩ := h _ _ _ _ _ _ _ _ _ _ hf
    have hpair : ∀ x ∈ rows, (x.name, x.date) ∈
        [(s%"v3.3", s%"2017-07-12 10:41:12"), (s%"main", s%"2021-12-17 13:09:18")] := by
      intro x hx
      rw [← h1]
      exact List.mem_map_of_mem (f := fun row : CacheRow => (row.name, row.date)) hx
    have hmain : (s%"main", s%"2021-12-17 13:09:18") ∈ rows.map (fun row => (row.name, row.date)) := by
      rw [h1]; decide
    obtain ⟨m, hm, hmeq⟩ := List.mem_map.1 hmain
    have hd : row.date = s%"2017-07-12 10:41:12" := by
      have := hpair row hrow
      rw [hname] at this
      simpa using this
    have := hmax m hm
    simp only [Prod.mk.injEq] at hmeq
    rw [hmeq.2, hd] at this
    revert this
    decide

/-- **C74** (partial: what is missing is that the table belongs to the sets afterwards but the default
to those before): the table lists the sets known after the installation, and the default is the latest
of the sets known before it. -/
theorem install_report_partial {source user : CacheDir} {listing : List Str}
    {net : Nat → Nat → Answer} {rm : Nat → Disk → Removal} {w : Nat → Str} {update : Bool}
    {names : List Str} {rows : List CacheRow} {r : Option Str} {sets : Dict Str FileSet}
    (h : funcInstall source user listing net rm w update names = .ok (rows, r))
    (hs : allFileSets source user = .ok sets) (hn : (Dict.keys sets).Nodup)
    (hw : ∀ kv ∈ sets, WellDescribed kv.2) :
    (∃ k s, Latest sets k s ∧ s.ref = r) ∧
    ∃ sets', allFileSets source ⟨user.path, listing,
      applyAll user.disk (installAll net rm w update 0 user.disk names).ops⟩ = .ok sets' ∧
      tableOfCaches sets' = .ok rows := by
  unfold funcInstall at h
  rw [hs] at h
  simp only at h
  split at h
  · cases h
  · rename_i dflt hd
    split at h
    · cases h
    · split at h
      · cases h
      · rename_i sets' hs'
        split at h
        · cases h
        · rename_i rows' hr
          cases h
          refine ⟨?_, sets', hs', hr⟩
          have hne : sets ≠ [] := by
            rintro rfl
            have := (select_fails_iff (sets := []) hn hw none .indexError).2 ⟨rfl, rfl⟩
            rw [hd] at this; cases this
          obtain ⟨k, s, hl, hsel⟩ := select_latest hn hw hne none (fun r h => by cases h)
          rw [hd] at hsel
          cases hsel
          exact ⟨k, dflt, hl, rfl⟩

end Punx
