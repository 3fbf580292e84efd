import Verif.Props.Install

/-!
# Interrupted installations: the properties (C44–C47, C66–C68)
-/

namespace Punx

open Spec

/-! ## C47: requests -/

/-- **C47** (violated): there is only ever one request. -/
theorem one_request (net : Nat → Answer) : (downloadArchive net).2 = 1 := by
  unfold downloadArchive requestLoop
  cases net 0 <;> rfl

/-- **C47** (violated): after a connection error the download has failed, whatever the next request
would give. -/
theorem not_retried (net : Nat → Answer) (h : net 0 = .connectionError) :
    (downloadArchive net).1 = .error .osError := by
  unfold downloadArchive requestLoop
  rw [h]

/-- **C47** (violated): a download that would succeed at the second attempt fails. -/
theorem retry_violated :
    ¬ ∀ (net : Nat → Answer) (z : Archive), net 0 = .connectionError → net 1 = .archive z →
      ∃ z', (downloadArchive net).1 = .ok (some z') := by
  intro h
  obtain ⟨z', hz⟩ := h (fun n => if n = 0 then .connectionError else .archive ⟨[], []⟩) ⟨[], []⟩ rfl rfl
  rw [not_retried _ rfl] at hz
  cases hz

/-- **C47** (what holds): the result is that of the first request, no other outcome of the network
matters; "could not download" (`None`) is never the result. -/
theorem first_request_partial (net : Nat → Answer) :
    (∀ z, net 0 = .archive z → (downloadArchive net).1 = .ok (some z)) ∧
    (∀ e, net 0 = .otherError e → (downloadArchive net).1 = .error e) ∧
    (downloadArchive net).1 ≠ .ok none := by
  unfold downloadArchive requestLoop
  refine ⟨?_, ?_, ?_⟩
  · intro z h; rw [h]
  · intro e h; rw [h]
  · cases net 0 <;> simp

theorem download_ops {net : Nat → Answer} {rm : Removal} {w : Str} {d : Disk} {name : Str}
    {replace : Bool} :
    (∃ z, net 0 = .archive z ∧ (d.has [name] = false ∨ replace = true) ∧
      downloadFileSet net rm w d name replace = unpack z rm w d name) ∨
    (downloadFileSet net rm w d name replace).ops = [] := by
  unfold downloadFileSet
  split
  · exact Or.inr rfl
  · rename_i hc
    unfold downloadArchive requestLoop
    cases h : net 0 with
    | archive z =>
      left
      refine ⟨z, rfl, ?_, rfl⟩
      cases hd : d.has [name] <;> cases replace <;> simp [hd] at hc ⊢
    | connectionError => exact Or.inr rfl
    | otherError e => exact Or.inr rfl

/-! ## C44 -/

/-- **C44**: without `replace`, the installation of a set that is there changes nothing (whatever the
network does, wherever it stops) and succeeds. -/
theorem no_replace_untouched {net : Nat → Answer} {rm : Removal} {w : Str} {d s : Disk} {name : Str}
    (h : d [name] ≠ none) (hs : Stops d (downloadFileSet net rm w d name false).ops s) :
    s = d ∧ (downloadFileSet net rm w d name false).res = .ok () := by
  have hh : d.has [name] = true := by simpa [Disk.has, Option.isSome_iff_ne_none] using h
  have : downloadFileSet net rm w d name false = ⟨[], .ok ()⟩ := by
    unfold downloadFileSet; simp [hh]
  rw [this] at hs ⊢
  exact ⟨stops_nil hs, rfl⟩

/-- **C44**: a download that fails changes nothing. -/
theorem failed_download_untouched {net : Nat → Answer} {rm : Removal} {w : Str} {d s : Disk}
    {name : Str} {replace : Bool} (h : ∀ z, net 0 ≠ .archive z)
    (hs : Stops d (downloadFileSet net rm w d name replace).ops s) : s = d := by
  rcases download_ops (net := net) (rm := rm) (w := w) (d := d) (name := name)
    (replace := replace) with ⟨z, hz, _⟩ | h0
  · exact absurd hz (h z)
  · rw [h0] at hs; exact stops_nil hs

/-! ## stages -/

/-- The old set is being removed, and some of it may be left. -/
def PartOf (s d : Disk) (name : Str) : Prop :=
  ∀ q, s (name :: q) = d (name :: q) ∨ s (name :: q) = none

theorem complete_congr {z : Archive} {top name : Str} {s d : Disk} {a b : FPath}
    (h : ∀ q, s (a ++ q) = d (b ++ q)) (hc : Complete z top name d b) : Complete z top name s a := by
  obtain ⟨h1, h2, o, dt, h3, h4⟩ := hc
  refine ⟨?_, ?_, o, dt, ?_, h4⟩
  · have := h []; simp only [List.append_nil] at this; rw [this]; exact h1
  · intro q m hm; rw [h q]; exact h2 q m hm
  · rw [h]; exact h3

/-- Everything that an interrupted installation can leave on the disk. -/
theorem stop_cases {net : Nat → Answer} {z : Archive} {top : Str} {rm : Removal} {w : Str}
    {d s : Disk} {name : Str} {replace : Bool} (hz : net 0 = .archive z) (ho : OneDirectory z top)
    (hne : top ≠ name) (hs : Stops d (downloadFileSet net rm w d name replace).ops s) :
    (∀ q : FPath, q.head? ≠ some name → q.head? ≠ some top → s q = d q) ∧
    (SameBelow s d name ∨
      (replace = true ∧ d [name] = some .dir ∧ Complete z top name s [top] ∧ PartOf s d name) ∨
      ((replace = true ∨ d [name] = none) ∧ Complete z top name s [name] ∧ Gone s top) ∨
      (replace = true ∧ d [name] = some .dir ∧ Complete z top name s [name, top] ∧ Gone s top ∧
        ∀ q : FPath, q.head? ≠ some top → s (name :: q) = d (name :: q) ∨ s (name :: q) = none)) := by
  rcases download_ops (net := net) (rm := rm) (w := w) (d := d) (name := name)
    (replace := replace) with ⟨z', hz', hrep, hd⟩ | h0
  · rw [hz] at hz'
    injection hz' with hz'
    subst hz'
    rw [hd] at hs
    have hrep' : d [name] = some .dir → replace = true := by
      intro hdir
      rcases hrep with h | h
      · simp [Disk.has, hdir] at h
      · exact h
    have hnt : ∀ q, ((name :: q : FPath)).head? ≠ some top := by
      intro q; simp [Ne.symm hne]
    rcases unpack_stages ho rm w d name with ⟨ops, h1, h2, _⟩ | ⟨ops, d2, h1, h2, h3, _, h5, _, _⟩
    · rw [h1] at hs
      refine ⟨fun q _ hq => stops_inside hs h2 hq, Or.inl fun q => stops_inside hs h2 (hnt q)⟩
    · rw [h3, stops_append] at hs
      rcases hs with hs | hs
      · refine ⟨fun q _ hq => stops_inside hs h1 hq, Or.inl fun q => stops_inside hs h1 (hnt q)⟩
      · rw [← h2] at hs
        have hfr : ∀ q : FPath, q.head? ≠ some top → d2 q = d q := by
          intro q hq; rw [h2]; exact applyAll_inside h1 hq
        have hdn : d2 [name] = d [name] := hfr _ (hnt [])
        rcases replaceOld_stops hne hs with ⟨k1, k2, k3⟩ | ⟨k1, k2, k3⟩ | ⟨k0, k1, k2, k3, k4⟩
        · refine ⟨fun q hq1 hq2 => (k1 q hq1).trans (hfr q hq2), ?_⟩
          by_cases hdir : d2 [name] = some .dir
          · right; left
            rw [hdn] at hdir
            refine ⟨hrep' hdir, hdir, complete_congr (fun q => ?_) h5, fun q => ?_⟩
            · exact k1 _ (by simp [hne])
            · rw [← hfr (name :: q) (hnt q)]; exact k2 q
          · left
            intro q
            rw [k3 hdir, hfr _ (hnt q)]
        · refine ⟨fun q hq1 hq2 => (k3 q hq1 hq2).trans (hfr q hq2), ?_⟩
          right; right; left
          refine ⟨?_, complete_congr (fun q => ?_) h5, k2⟩
          · rcases hrep with h | h
            · right; simpa [Disk.has] using h
            · exact Or.inl h
          · simpa using k1 q
        · refine ⟨fun q hq1 hq2 => (k3 q hq1 hq2).trans (hfr q hq2), ?_⟩
          right; right; right
          rw [hdn] at k0
          refine ⟨hrep' k0, k0, complete_congr (fun q => ?_) h5, k2, ?_⟩
          · simpa using k1 q
          · intro q hq
            rw [← hfr (name :: q) (hnt q)]
            exact k4 q hq
  · rw [h0] at hs
    rw [stops_nil hs]
    exact ⟨fun _ _ _ => rfl, Or.inl fun _ => rfl⟩

/-! ## C45 -/

/-- **C45** (other sets): wherever an installation stops, all sets under other names than the
requested one and the temporary directory are as they were. -/
theorem other_sets_untouched {net : Nat → Answer} {z : Archive} {top : Str} {rm : Removal} {w : Str}
    {d s : Disk} {name other : Str} {replace : Bool} (hz : net 0 = .archive z)
    (ho : OneDirectory z top) (hne : top ≠ name)
    (hs : Stops d (downloadFileSet net rm w d name replace).ops s)
    (h1 : other ≠ name) (h2 : other ≠ top) : SameBelow s d other :=
  fun q => (stop_cases hz ho hne hs).1 (other :: q) (by simpa using h1) (by simpa using h2)

/-- **C45** (first installation): wherever an installation of a set that is not there stops, nothing
with the requested name is there, or the complete set. -/
theorem first_install_atomic {net : Nat → Answer} {z : Archive} {top : Str} {rm : Removal} {w : Str}
    {d s : Disk} {name : Str} {replace : Bool} (hz : net 0 = .archive z) (ho : OneDirectory z top)
    (hne : top ≠ name) (hd : Gone d name)
    (hs : Stops d (downloadFileSet net rm w d name replace).ops s) :
    Gone s name ∨ (Complete z top name s [name] ∧ Gone s top) := by
  have hn : d [name] ≠ some .dir := by rw [hd []]; simp
  rcases (stop_cases hz ho hne hs).2 with h | ⟨_, h, _⟩ | ⟨_, h1, h2⟩ | ⟨_, h, _⟩
  · exact Or.inl fun q => (h q).trans (hd q)
  · exact absurd h hn
  · exact Or.inr ⟨h1, h2⟩
  · exact absurd h hn

/-- **C45** (partial): wherever an installation stops, what is there under the requested name is the
previous set, or what is left of it (only during an update), or the complete new set.
What is missing: see `half_removed_set_listed`. -/
theorem interrupted_install_partial {net : Nat → Answer} {z : Archive} {top : Str} {rm : Removal}
    {w : Str} {d s : Disk} {name : Str} {replace : Bool} (hz : net 0 = .archive z)
    (ho : OneDirectory z top) (hne : top ≠ name)
    (hs : Stops d (downloadFileSet net rm w d name replace).ops s) :
    SameBelow s d name ∨ (Complete z top name s [name] ∧ Gone s top) ∨
      (replace = true ∧ d [name] = some .dir ∧
        ∀ q : FPath, q.head? ≠ some top → s (name :: q) = d (name :: q) ∨ s (name :: q) = none) := by
  rcases (stop_cases hz ho hne hs).2 with h | ⟨h0, h1, _, h2⟩ | ⟨_, h1, h2⟩ | ⟨h0, h1, _, _, h2⟩
  · exact Or.inl h
  · exact Or.inr (Or.inr ⟨h0, h1, fun q _ => h2 q⟩)
  · exact Or.inr (Or.inl ⟨h1, h2⟩)
  · exact Or.inr (Or.inr ⟨h0, h1, h2⟩)

/-! ## C46 -/

/-- **C46** (partial): wherever an update stops, the previous set is untouched or the complete new one
is somewhere in the cache: in the temporary directory, under the requested name, or in the
temporary directory inside of that.  What is missing: under the requested name there may be
nothing, see `update_loses_set`. -/
theorem update_keeps_a_copy_partial {net : Nat → Answer} {z : Archive} {top : Str} {rm : Removal}
    {w : Str} {d s : Disk} {name : Str} {replace : Bool} (hz : net 0 = .archive z)
    (ho : OneDirectory z top) (hne : top ≠ name)
    (hs : Stops d (downloadFileSet net rm w d name replace).ops s) :
    SameBelow s d name ∨ Complete z top name s [top] ∨ Complete z top name s [name] ∨
      Complete z top name s [name, top] := by
  rcases (stop_cases hz ho hne hs).2 with h | ⟨_, _, h, _⟩ | ⟨_, h, _⟩ | ⟨_, _, h, _⟩
  · exact Or.inl h
  · exact Or.inr (Or.inl h)
  · exact Or.inr (Or.inr (Or.inl h))
  · exact Or.inr (Or.inr (Or.inr h))

/-! ## a complete run -/

/-- Removing the old directory works: everything in it is removed. -/
def RemovesAll (rm : Removal) (d : Disk) (name : Str) : Prop :=
  ∀ q, d (name :: q) ≠ none → q ∈ rm

theorem remove_all {rm : Removal} {d : Disk} {name : Str} :
    ∀ q, applyAll d (rm.map (fun r => Op.remove (name :: r))) (name :: q) =
      if q ∈ rm then none else d (name :: q) := by
  induction rm generalizing d with
  | nil => intro q; simp [applyAll_nil]
  | cons r rm ih =>
    intro q
    rw [List.map_cons, applyAll_cons, ih]
    by_cases h : q ∈ rm
    · simp [h]
    · simp only [h, if_false, Op.apply, Disk.put, List.cons.injEq, true_and, List.mem_cons, or_false]

/-- **C66** (partial: removing the old set has to work): an installation that reports success has put
the complete set under the requested name, nothing of the previous one is left, the temporary
directory is gone. -/
theorem install_success_partial {net : Nat → Answer} {z : Archive} {top : Str} {rm : Removal}
    {w : Str} {d s : Disk} {name : Str} {replace : Bool} (hz : net 0 = .archive z)
    (ho : OneDirectory z top) (hne : top ≠ name)
    (hrm : RemovesAll rm d name) (hrep : replace = true ∨ d [name] = none)
    (hres : (downloadFileSet net rm w d name replace).res = .ok ())
    (hs : s = applyAll d (downloadFileSet net rm w d name replace).ops) :
    Complete z top name s [name] ∧ Gone s top ∧
    (∀ q : FPath, q.head? ≠ some name → q.head? ≠ some top → s q = d q) ∧
    (∀ q, (¬ ∃ m, FinalAt z top (top :: q) m) → q ≠ [infoName] →
      ((∃ p m, FinalAt z top p m ∧ Above (top :: q) p) → s (name :: q) = some .dir) ∧
      ((¬ ∃ p m, FinalAt z top p m ∧ Above (top :: q) p) → s (name :: q) = d (top :: q))) := by
  have hnt : ∀ q, ((name :: q : FPath)).head? ≠ some top := by
    intro q; simp [Ne.symm hne]
  have hun : downloadFileSet net rm w d name replace = unpack z rm w d name := by
    unfold downloadFileSet downloadArchive requestLoop
    rw [hz]
    have : (d.has [name] && !replace) = false := by
      rcases hrep with h | h
      · simp [h]
      · simp [Disk.has, h]
    simp [this]
  rw [hun] at hres hs
  rcases unpack_stages ho rm w d name with ⟨_, _, _, ⟨e, he⟩, _⟩ | ⟨ops, d2, h1, h2, h3, h4, h5, h6, h7⟩
  · rw [he] at hres; cases hres
  · have hfr : ∀ q : FPath, q.head? ≠ some top → d2 q = d q := by
      intro q hq; rw [h2]; exact applyAll_inside h1 hq
    rw [h4] at hres
    rw [h3, applyAll_append, ← h2] at hs
    -- the final step
    have hfin : s = Op.apply (applyAll d2 (if d2.isDir [name] = true then
        rm.map (fun r => Op.remove (name :: r)) else [])) (.rename [top] [name]) := by
      unfold replaceOld Deed.andThen at hres hs
      simp only at hres hs
      generalize hd3 : applyAll d2 (if d2.isDir [name] = true then
        rm.map (fun r => Op.remove (name :: r)) else []) = d3 at hres hs ⊢
      have hnone : d3 [name] = none := by
        by_cases hdir : d2.isDir [name] = true
        · rw [if_pos hdir] at hd3
          have hmem : ([] : FPath) ∈ rm := by
            apply hrm
            rw [← hfr _ (hnt [])]
            have : d2 [name] = some .dir := by simpa [Disk.isDir] using hdir
            rw [this]; simp
          rw [← hd3, remove_all, if_pos hmem]
        · rw [if_neg hdir] at hd3
          rw [← hd3]
          cases hdn : d2 [name] with
          | none => simp [applyAll_nil, hdn]
          | some f =>
            cases f with
            | dir => simp [Disk.isDir, hdn] at hdir
            | file c =>
              exfalso
              have : d3 [name] = some (.file c) := by rw [← hd3]; exact hdn
              simp [this] at hres
      rw [hnone] at hres hs
      simp only at hres hs
      split at hres
      · rename_i htop
        rw [if_pos htop] at hs
        rw [applyAll_append, hd3] at hs
        rw [hs]; rfl
      · cases hres
    have hd3n : ∀ q : FPath, q.head? ≠ some name →
        applyAll d2 (if d2.isDir [name] = true then
          rm.map (fun r => Op.remove (name :: r)) else []) q = d2 q := by
      intro q hq
      refine applyAll_inside ?_ hq
      intro o ho'
      split at ho'
      · obtain ⟨r, _, rfl⟩ := List.mem_map.1 ho'
        exact ⟨r, rfl⟩
      · cases ho'
    generalize applyAll d2 (if d2.isDir [name] = true then
        rm.map (fun r => Op.remove (name :: r)) else []) = d3 at hfin hd3n
    have hsn : ∀ q, s (name :: q) = d2 (top :: q) := by
      intro q
      rw [hfin]
      simp only [Op.apply, List.cons_prefix_cons, List.nil_prefix, and_true, if_true]
      have := hd3n (top :: q) (by simp [hne])
      simpa using this
    refine ⟨complete_congr (fun q => by simpa using hsn q) h5, ?_, ?_, ?_⟩
    · intro q
      rw [hfin]
      simp [Op.apply, Ne.symm hne]
    · intro q hq1 hq2
      have k1 : ¬ [name] <+: q := by
        rintro ⟨t, rfl⟩; exact hq1 rfl
      have k2 : ¬ [top] <+: q := by
        rintro ⟨t, rfl⟩; exact hq2 rfl
      rw [hfin]
      simp only [Op.apply, k1, k2, if_false]
      rw [hd3n q hq1, hfr q hq2]
    · intro q hq1 hq2
      have hq3 : top :: q ≠ [top, infoName] := by simpa using hq2
      rw [hsn]
      exact ⟨fun h => h7 _ hq1 h hq3, fun h => h6 _ hq1 h hq3⟩

/-- C66, the other case: if the old directory cannot be removed, an installation that reports success
has put the complete set into the old directory, where it is not found; what could not be removed is
still there. -/
theorem install_success_nested {net : Nat → Answer} {z : Archive} {top : Str} {rm : Removal}
    {w : Str} {d s : Disk} {name : Str} {replace : Bool} (hz : net 0 = .archive z)
    (ho : OneDirectory z top) (hne : top ≠ name)
    (hdir : d [name] = some .dir) (hrm : [] ∉ rm) (hrep : replace = true)
    (hres : (downloadFileSet net rm w d name replace).res = .ok ())
    (hs : s = applyAll d (downloadFileSet net rm w d name replace).ops) :
    Complete z top name s [name, top] ∧ Gone s top ∧
    ∀ q : FPath, q.head? ≠ some top → s (name :: q) = if q ∈ rm then none else d (name :: q) := by
  have hnt : ∀ q, ((name :: q : FPath)).head? ≠ some top := by
    intro q; simp [Ne.symm hne]
  have hun : downloadFileSet net rm w d name replace = unpack z rm w d name := by
    unfold downloadFileSet downloadArchive requestLoop
    rw [hz]
    simp [hrep]
  rw [hun] at hres hs
  rcases unpack_stages ho rm w d name with ⟨_, _, _, ⟨e, he⟩, _⟩ | ⟨ops, d2, h1, h2, h3, h4, h5, h6, h7⟩
  · rw [he] at hres; cases hres
  · have hfr : ∀ q : FPath, q.head? ≠ some top → d2 q = d q := by
      intro q hq; rw [h2]; exact applyAll_inside h1 hq
    rw [h4] at hres
    rw [h3, applyAll_append, ← h2] at hs
    have hd2 : d2.isDir [name] = true := by simp [Disk.isDir, hfr _ (hnt []), hdir]
    unfold replaceOld Deed.andThen at hres hs
    simp only [if_pos hd2] at hres hs
    generalize hd3 : applyAll d2 (rm.map (fun r => Op.remove (name :: r))) = d3 at hres hs
    have h3n : ∀ q, d3 (name :: q) = if q ∈ rm then none else d (name :: q) := by
      intro q
      rw [← hd3, remove_all, hfr _ (hnt q)]
    have h3t : ∀ q : FPath, q.head? ≠ some name → d3 q = d2 q := by
      intro q hq
      rw [← hd3]
      refine applyAll_inside ?_ hq
      intro o ho'
      obtain ⟨r, _, rfl⟩ := List.mem_map.1 ho'
      exact ⟨r, rfl⟩
    have hdn : d3 [name] = some .dir := by rw [h3n, if_neg hrm, hdir]
    rw [hdn] at hres hs
    simp only at hres hs
    split at hres
    · cases hres
    · rename_i hc
      rw [if_neg hc, applyAll_append, hd3] at hs
      have hfin : s = Op.apply d3 (.rename [top] [name, top]) := hs
      refine ⟨complete_congr (fun q => ?_) h5, fun q => ?_, fun q hq => ?_⟩
      · rw [hfin]
        have := h3t (top :: q) (by simp [hne])
        simpa [Op.apply] using this
      · rw [hfin]
        simp [Op.apply, Ne.symm hne]
      · rw [hfin, ← h3n]
        have k : ¬ [name, top] <+: name :: q := by
          rintro ⟨t, e⟩
          rw [List.cons_append, List.cons_append, List.cons.injEq] at e
          rw [← e.2] at hq
          exact hq rfl
        have k' : ¬ [top] <+: name :: q := by
          rintro ⟨t, e⟩
          rw [List.cons_append, List.cons.injEq] at e
          exact hne e.1
        simp only [Op.apply, k, k', if_false]

open Classical in
/-- **C48**: an archive with fewer than two wanted members is refused, and wherever the attempt stops
nothing but the temporary directory has changed. -/
theorem too_few_refused {net : Nat → Answer} {z : Archive} {top : Str} {rm : Removal}
    {w : Str} {d s : Disk} {name : Str} {replace : Bool} (hz : net 0 = .archive z)
    (ho : OneDirectory z top) (hrep : replace = true ∨ d [name] = none)
    (hfew : (z.members.filter (fun m => decide (Wanted top m.name))).length < 2) :
    (∃ e, (downloadFileSet net rm w d name replace).res = .error e) ∧
    (Stops d (downloadFileSet net rm w d name replace).ops s →
      ∀ q : FPath, q.head? ≠ some top → s q = d q) := by
  have hun : downloadFileSet net rm w d name replace = unpack z rm w d name := by
    unfold downloadFileSet downloadArchive requestLoop
    rw [hz]
    have : (d.has [name] && !replace) = false := by
      rcases hrep with h | h
      · simp [h]
      · simp [Disk.has, h]
    simp [this]
  rw [hun]
  obtain ⟨m0, ms, hm, htop⟩ := oneDirectory_first ho
  have ht := oneDirectory_ne ho
  have hpaths : ∀ i ∈ z.members.map (·.name), ∃ r, extractPath i = top :: r := by
    intro i hi
    obtain ⟨m, hm, rfl⟩ := List.mem_map.1 hi
    exact oneDirectory_path ho hm
  have hin := extractAll_inside (z := z) (es := endings) (ps := categories ++ [top]) hpaths d
    preNexus 0
  have key : (∃ e, (unpack z rm w d name).res = .error e) ∧
      (unpack z rm w d name).ops =
        (extractAll z endings (categories ++ [top]) d preNexus 0 (z.members.map (·.name))).ops := by
    unfold unpack
    rw [hm]
    simp only [htop]
    rw [← hm]
    unfold Deed.andThen
    cases hr : (extractAll z endings (categories ++ [top]) d preNexus 0
        (z.members.map (·.name))).res with
    | error e => exact ⟨⟨e, rfl⟩, rfl⟩
    | ok x =>
      obtain ⟨dt, n⟩ := x
      have := (extracted_count ht hr).1
      have hn : n < 2 := by
        rw [this]
        exact hfew
      simp [hn]
  rw [key.2]
  exact ⟨key.1, fun hs q hq => stops_inside hs hin hq⟩

/-! ## C67: trying again -/

/-- **C67** (first installation): after an interrupted first installation the same command (also
without `--update`) either finds the complete set or installs it: if it reports success then the
complete set is there. -/
theorem first_install_repeatable {net net' : Nat → Answer} {z z' : Archive} {top top' : Str}
    {rm rm' : Removal} {w w' : Str} {d s s' : Disk} {name : Str} {replace : Bool}
    (hz : net 0 = .archive z) (ho : OneDirectory z top) (hne : top ≠ name)
    (hz' : net' 0 = .archive z') (ho' : OneDirectory z' top') (hne' : top' ≠ name)
    (hd : Gone d name) (hs : Stops d (downloadFileSet net rm w d name replace).ops s)
    (hres : (downloadFileSet net' rm' w' s name false).res = .ok ())
    (hs' : s' = applyAll s (downloadFileSet net' rm' w' s name false).ops) :
    Complete z top name s' [name] ∨ Complete z' top' name s' [name] := by
  rcases first_install_atomic hz ho hne hd hs with h | ⟨h, _⟩
  · right
    refine (install_success_partial hz' ho' hne' (fun q hq => absurd (h q) hq) (Or.inr (h []))
      hres hs').1
  · left
    have hex : s [name] ≠ none := by rw [h.1]; simp
    have := (no_replace_untouched hex (hs' ▸ stops_end s
      (downloadFileSet net' rm' w' s name false).ops)).1
    rw [this]; exact h

/-- **C67**: the same for an update, if it is repeated with `--update` (and removing works): success
means that the complete new set is there, whatever the interrupted attempt left behind. -/
theorem update_repeatable_partial {net : Nat → Answer} {z : Archive} {top : Str} {rm : Removal} {w : Str}
    {s s' : Disk} {name : Str} (hz : net 0 = .archive z) (ho : OneDirectory z top)
    (hne : top ≠ name) (hrm : RemovesAll rm s name)
    (hres : (downloadFileSet net rm w s name true).res = .ok ())
    (hs' : s' = applyAll s (downloadFileSet net rm w s name true).ops) :
    Complete z top name s' [name] ∧ Gone s' top :=
  let h := install_success_partial hz ho hne hrm (Or.inl rfl) hres hs'
  ⟨h.1, h.2.1⟩

/-! ## C68: listing after an interruption -/

/-- **C68** (partial): after an interrupted installation every set can still be read, except perhaps
what is in the temporary directory.  What is missing: see `listing_broken`. -/
theorem listing_after_stop_partial {net : Nat → Answer} {z : Archive} {top : Str} {rm : Removal}
    {w : Str} {d s : Disk} {name k : Str} {replace : Bool} (hz : net 0 = .archive z)
    (ho : OneDirectory z top) (hne : top ≠ name) (htop : top ≠ infoName)
    (hs : Stops d (downloadFileSet net rm w d name replace).ops s)
    (hd : ∀ k, IsListed d k → ∃ o, Described d k o) (hk : k ≠ top) (hl : IsListed s k) :
    ∃ o, Described s k o := by
  obtain ⟨h0, h1⟩ := stop_cases hz ho hne hs
  by_cases hkn : k = name
  · subst hkn
    have hpart : ∀ (_ : s [k] = d [k] ∨ s [k] = none)
        (_ : s [k, infoName] = d [k, infoName] ∨ s [k, infoName] = none), ∃ o, Described s k o := by
      intro h2 h3
      have e1 : s [k] = d [k] := by
        rcases h2 with h | h
        · exact h
        · exact absurd (hl.1.symm.trans h) (by simp)
      have e2 : s [k, infoName] = d [k, infoName] := by
        rcases h3 with h | h
        · exact h
        · exact absurd h hl.2
      obtain ⟨o, ho'⟩ := hd k ⟨e1 ▸ hl.1, e2 ▸ hl.2⟩
      exact ⟨o, e2.trans ho'⟩
    rcases h1 with h | ⟨_, _, _, h⟩ | ⟨_, h, _⟩ | ⟨_, _, _, _, h⟩
    · exact hpart (Or.inl (h [])) (Or.inl (h [infoName]))
    · exact hpart (h []) (h [infoName])
    · obtain ⟨_, _, o, _, h3, _⟩ := h
      exact ⟨o, h3⟩
    · exact hpart (h [] (by simp)) (h [infoName] (by simpa using Ne.symm htop))
  · have hsame : SameBelow s d k :=
      fun q => h0 (k :: q) (by simpa using hkn) (by simpa using hk)
    obtain ⟨o, ho'⟩ := hd k ⟨(hsame []) ▸ hl.1, (hsame [infoName]) ▸ hl.2⟩
    exact ⟨o, (hsame [infoName]).trans ho'⟩

end Punx
