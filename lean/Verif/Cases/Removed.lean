import Verif.Props.Removed3
import Verif.Cases.Accepts

/-!
# C135 applied to files
-/

namespace Punx
open Spec

theorem spare_still {g : Node} {p : Str} (h1 : h5contains (trim spare spareFile) (trimNode spare g) p = true)
    (h2 : ∃ m, h5get (trim spare spareFile) (trimNode spare g) p = .ok (some m)) :
    StillThere spare spareFile g p := ⟨fun _ => h1, fun _ _ => h2⟩

/-- Are all attributes of NeXus objects with a text that refers to something of the kinds found in
the file? -/
def spareRefs (it : Item) : Bool :=
  it.classpath == s%"non-NeXus content" ||
    match it.obj.attrs? with
    | none => true
    | some attrs => attrs.all fun ka =>
      !(ka.1 == s%"target") && !(ka.1 == s%"axes") &&
        (!(ka.1 == s%"signal" || ka.1 == s%"default") ||
          (match it.obj.asGroup, ka.2 with
          | some g, .str s => h5contains (trim spare spareFile) (trimNode spare g) s &&
              (match h5get (trim spare spareFile) (trimNode spare g) s with
              | .ok (some _) => true
              | _ => false)
          | _, _ => false))

theorem spareRefs_all : ∀ it ∈ contents sampleEnv spareFile, spareRefs it = true := by decide +kernel

theorem spareRefs_attr {it : Item} (hm : it ∈ contents sampleEnv spareFile)
    (hc : it.classpath ≠ s%"non-NeXus content") {attrs : List (Str × Val)}
    (ha : it.obj.attrs? = some attrs) {k : Str} {v : Val} (hk : (k, v) ∈ attrs) :
    k ≠ s%"target" ∧ k ≠ s%"axes" ∧ (k = s%"signal" ∨ k = s%"default" →
      ∃ g s, it.obj.asGroup = some g ∧ v = .str s ∧
        h5contains (trim spare spareFile) (trimNode spare g) s = true ∧
        ∃ m, h5get (trim spare spareFile) (trimNode spare g) s = .ok (some m)) := by
  have h := spareRefs_all it hm
  rw [spareRefs, ha, Bool.or_eq_true, beq_iff_eq] at h
  have h := h.resolve_left hc
  have h := List.all_eq_true.1 h _ hk
  simp only [Bool.and_eq_true, Bool.not_eq_true', beq_eq_false_iff_ne, ne_eq] at h
  refine ⟨h.1.1, h.1.2, fun hs => ?_⟩
  have h := h.2
  rw [Bool.or_eq_true] at h
  have h := h.resolve_left (by rcases hs with rfl | rfl <;> simp)
  split at h
  · rw [Bool.and_eq_true] at h
    refine ⟨_, _, by assumption, rfl, h.1, ?_⟩
    have h := h.2
    split at h
    · rename_i m e
      exact ⟨m, e⟩
    · cases h
  · cases h

theorem spareFile_definitions : ∀ it ∈ contents sampleEnv spareFile, ¬ IsDefinition it := by
  have h : ∀ it ∈ contents sampleEnv spareFile, it.classpath ≠ s%"/NXentry/definition" ∧
      it.classpath ≠ s%"/NXentry/NXsubentry/definition" := by decide +kernel
  exact fun it hm hi => hi.elim (h it hm).1 (h it hm).2

theorem spareFile_signals : ∀ it ∈ dataSignals (contents sampleEnv spareFile),
    it.addr = some s%"/e/d@signal" := by decide +kernel

theorem spareFile_listed : ∀ it ∈ contents sampleEnv spareFile, it.addr = some s%"/e/d" →
    it.obj.name? = some s%"/e/d" ∧
    it.obj.attrs? = some [(s%"NX_class", .str s%"NXdata"), (s%"signal", .str s%"x")] := by
  intro it hm ha
  have h : ∀ it ∈ contents sampleEnv spareFile, it.addr = some s%"/e/d" →
      it.obj.name? = some s%"/e/d" := by decide +kernel
  have h' : ∀ it ∈ contents sampleEnv spareFile, it.addr = some s%"/e/d" →
      it.obj.attrs? = some [(s%"NX_class", .str s%"NXdata"), (s%"signal", .str s%"x")] := by
    decide +kernel
  exact ⟨h it hm ha, h' it hm ha⟩

theorem mem_of_itemAt {items : List Item} {a : Str} {it : Item} (h : itemAt items a = some it) :
    it ∈ items ∧ it.addr = some a := by
  have := List.mem_of_getLast? h
  rw [List.mem_filter] at this
  exact ⟨this.1, of_decide_eq_true this.2⟩

theorem spareFile_kept (mgr : Manager) : ReferencesKept sampleEnv mgr spare spareFile := by
  refine ⟨?_, ?_, ?_, ?_, ?_, ?_⟩
  · intro o a v t hc
    obtain ⟨attrs, h1, h2⟩ := hc.attr
    exact absurd rfl (spareRefs_attr hc.mem hc.nexus h1 h2).1
  · intro o hm hc g hg k v s hk hs ht
    obtain ⟨attrs, ha⟩ := group_name hg
    rw [group_attrs hg ha] at hk
    obtain ⟨g', s', h1, rfl, h2, h3⟩ := (spareRefs_attr hm hc ha hk).2.2 hs
    rw [hg] at h1
    cases h1
    rcases ht with e | ⟨b, e, _⟩ <;> cases e
    exact spare_still h2 h3
  · intro o hm hc g hg v names n hk
    obtain ⟨attrs, ha⟩ := group_name hg
    rw [group_attrs hg ha] at hk
    exact absurd rfl (spareRefs_attr hm hc ha hk).2.1
  · rintro g name ⟨it, hm, hi, _⟩
    exact absurd hi (spareFile_definitions it hm)
  · rintro g fld ⟨name, ad, gname, entry, more, ⟨it, hm, hi, _⟩, _⟩
    exact absurd hi (spareFile_definitions it hm)
  · rintro it hit D E R t g ⟨r, e, d, rest, h1, h2, h3, h4, h5, h6, h7⟩ hn hg
    have he := entryAndData_eq h1 h2 h3 h4
    have he' := entryAndData_eq (it := it) (r := []) (e := s%"e") (d := s%"d") (rest := s%"@signal")
      (spareFile_signals it hit) (by decide) (by decide) (.inr ⟨_, rfl⟩)
    rw [he] at he'
    simp only [Except.ok.injEq, Prod.mk.injEq] at he'
    obtain ⟨rfl, rfl⟩ := he'
    obtain ⟨hD, aD⟩ := mem_of_itemAt h5
    obtain ⟨hE, aE⟩ := mem_of_itemAt h6
    obtain ⟨n, attrs, v, s, m1, m2, m3, m4, rfl⟩ := hn
    obtain ⟨k1, k2⟩ := spareFile_listed D hD aD
    rw [k1] at m1
    rw [k2] at m2
    cases m1
    cases m2
    have m3 : v = .str s%"x" := (Option.some.inj m3).symm
    subst m3
    rcases m4 with e | ⟨b, e, _⟩ <;> cases e
    have hl : ∀ a ∈ [s%"/e", s%"/e/d", s%"/e/d/x"],
        ∃ it ∈ contents sampleEnv (trim spare spareFile), it.addr = some a := by decide +kernel
    rw [aD, aE]
    have hp : pathFrom s%"/e/d" s%"x" = s%"/e/d/x" := by decide
    refine ⟨?_, fun _ => hl _ (by simp), fun _ => hl _ (by simp), fun _ => hp ▸ hl _ (by simp)⟩
    rw [hp]
    exact spare_still rfl ⟨_, rfl⟩

/-- The hypotheses of C135 hold for the file. -/
theorem removed_case : (validateOpen sampleEnv sampleMgr [] (extended .nil .nil .nil)).res = .ok () ∧
    ∀ x ∈ findings (validateOpen sampleEnv sampleMgr [] (extended .nil .nil .nil)).log,
      x.status ≠ .error := by
  rw [← spareFile_trim]
  exact (extras_irrelevant (by rfl) spareFile_wellNamed sampleMgr_entry sampleMgr_noSlash
    (spareFile_extras _) (spareFile_kept _)).1 extras_case

/-- `command_removed`: the file passes exactly if it passes without the additional content. -/
theorem command_removed_case : Passes (accRun s%"v1" spareFile) ∧
    (Passes (accRun s%"v1" spareFile) ↔ Passes (accRun s%"v1" (trim spare spareFile))) := by
  obtain ⟨sets, f, _, hs, hw, hf, hdir, _, _⟩ := acc_listed
  have hd := acc_sound hf (hdir ▸ ⟨cmd_has, cmd_lawful⟩)
  have h : Passes (accRun s%"v1" spareFile) ↔ Passes (accRun s%"v1" (trim spare spareFile)) := by
    unfold accRun
    exact command_removed (X := spare) (f := spareFile) (files := accDisk spareFile)
      (files' := accDisk (trim spare spareFile)) hs hw hd (acc_plain _) rfl (acc_disk _ _)
      (acc_disk _ _) spareFile_wellNamed (fun mgr hR => ⟨spareFile_extras mgr, spareFile_kept mgr,
        accMgr_slash (accMgr_of hs hw hd hR)⟩)
  exact ⟨h.2 spare_passes, h⟩

/-- A file with a default plot whose signal is `s`, and another field with a `target`. -/
def pointed (s t : Str) (e : Kids) : H5File where
  attrs := [(s%"default", .str s%"e")]
  kids := .cons s%"e" .hard (.group s%"/e" [(s%"NX_class", .str s%"NXentry"), (s%"default", .str s%"d")]
    (.cons s%"d" .hard (.group s%"/e/d" [(s%"NX_class", .str s%"NXdata"), (s%"signal", .str s)]
      (.cons s%"x" .hard (.dataset s%"/e/d/x" [] (.ofVal (.int 1)))
        (.cons s%"y" .hard (.dataset s%"/e/d/y" [(s%"target", .str t)] (.ofVal (.int 2))) .nil))) e)) .nil

/-- A field that nothing refers to can be removed; not so a field that is the target of another one,
nor the signal, though both could be in every file. -/
theorem other_removals_reject :
    errorsOf (pointed s%"x" s%"/e/d/y"
      (.cons s%"log" .hard (.dataset s%"/e/log" [] (.ofVal (.int 2))) .nil)) = [] ∧
    errorsOf (pointed s%"x" s%"/e/d/y" .nil) = [] ∧
    errorsOf (pointed s%"x" s%"/e/log"
      (.cons s%"log" .hard (.dataset s%"/e/log" [] (.ofVal (.int 2))) .nil)) = [] ∧
    errorsOf (pointed s%"x" s%"/e/log" .nil) ≠ [] ∧
    errorsOf (trim (fun n => n.name == s%"/e/d/x") (pointed s%"x" s%"/e/d/y" .nil)) ≠ [] := by
  refine ⟨?_, ?_, ?_, ?_, ?_⟩ <;> decide +kernel

end Punx
