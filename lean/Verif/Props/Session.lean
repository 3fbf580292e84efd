import Verif.Spec.Session
import Verif.Props.TrueNames
import Verif.Props.Installed
import Verif.Props.Usage

/-!
# C120: sessions
-/

namespace Punx

open Spec

/-! ## which runs change the caches -/

/-- **C120**: only lines that begin with `install`, or a beginning of it, change the user's cache. -/
theorem changed_by_install {M : Machine} {x : Moment} {d : Disk} {args : List Str}
    (h : (runMain M x d args).2 ≠ d) :
    ∃ c rest, args = c :: rest ∧ Calls c s%"install" := by
  unfold runMain at h
  split at h
  all_goals try exact absurd rfl h
  rename_i names update hm
  unfold mainCommand at hm
  split at hm
  · cases hm
  · obtain ⟨c, rest, _, _, h1, h2, _⟩ := install_read_iff.1 hm
    exact ⟨c, rest, h1, h2⟩

theorem afterUses_append (d : Disk) (us vs : List Use) :
    afterUses d (us ++ vs) = afterUses (afterUses d us) vs := by
  induction us generalizing d with
  | nil => rfl
  | cons u us ih => exact ih _

theorem performed_disk {x : Moment} {update : Bool} {k : Nat} {d : Disk} {names : List Str} :
    applyAll d (installAll x.net x.removal x.written update k d names).ops =
      afterUses d (performed x update k d names) := by
  induction names generalizing k d with
  | nil => rfl
  | cons n ns ih =>
    unfold installAll performed
    unfold Use.alone Deed.andThen
    cases hr : (downloadFileSet (x.net k) (x.removal k d) (x.written k) d n update).res with
    | error e =>
      simp only [hr]
      rfl
    | ok _ =>
      simp only [hr]
      rw [applyAll_append, ih]
      rfl

theorem run_disk {M : Machine} {x : Moment} {d : Disk} {args : List Str} :
    (runMain M x d args).2 = afterUses d (runUses M x d args) := by
  unfold runMain runUses
  split <;> rename_i h <;> simp only [h] <;> first | exact performed_disk | rfl

theorem session_disk {M : Machine} {d : Disk} {l : List (Moment × List Str)} :
    (session M d l).2 = afterUses d (sessionUses M d l) := by
  induction l generalizing d with
  | nil => rfl
  | cons r rest ih =>
    obtain ⟨x, args⟩ := r
    simp only [session, sessionUses, afterUses_append]
    rw [ih, run_disk]

/-! ## what is installed in a session -/

theorem letters_no_word {p : CliParser} {s : Str} {ps : List Piece} {o : Option CliOpt} {w : Str}
    (h : Letters p s ps o) : Piece.word w ∉ ps := by
  induction h <;> simp_all

theorem options_no_word {t : Texts} {p : CliParser} {a w : Str} {ps : List Piece} {o : Option CliOpt}
    (h : Options t p a ps o) : Piece.word w ∉ ps := by
  cases h with
  | letters h => exact letters_no_word h
  | _ => simp

theorem word_of_args {t : Texts} {p : CliParser} {as : List Str} {ps : List Piece}
    (h : Consists t p as ps) {w : Str} (hw : Piece.word w ∈ ps) : w ∈ as := by
  induction h with
  | nil => cases hw
  | word _ _ ih =>
    rcases List.mem_cons.1 hw with h | h
    · cases h; simp
    · exact List.mem_cons_of_mem _ (ih h)
  | options ho _ ih =>
    rcases List.mem_append.1 hw with h | h
    · exact absurd h (options_no_word ho)
    · exact List.mem_cons_of_mem _ (ih h)
  | optionsText ho _ _ ih =>
    rcases List.mem_append.1 hw with h | h
    · exact absurd h (options_no_word ho)
    · rcases List.mem_cons.1 h with h | h
      · cases h
      · exact List.mem_cons_of_mem _ (List.mem_cons_of_mem _ (ih h))
  | dashes =>
    rcases List.mem_cons.1 hw with h | h
    · cases h
    · obtain ⟨x, hx, h⟩ := List.mem_map.1 h
      cases h
      exact List.mem_cons_of_mem _ hx

theorem letters_flags_only {p : CliParser} (hp : ∀ o ∈ p.opts, o.takes = false) {s : Str} {ps : List Piece}
    {o : Option CliOpt} (h : Letters p s ps o) : o = none := by
  induction h with
  | flags _ _ _ ih => exact ih
  | awaits h1 h2 => rw [hp _ h1.1] at h2; cases h2
  | _ => rfl

/-- The options of `punx install` have no texts: what does not begin with a dash is a name. -/
theorem args_of_word {t : Texts} {p : CliParser} (hp : ∀ o ∈ p.opts, o.takes = false) {as : List Str}
    {ps : List Piece} (h : Consists t p as ps) {w : Str} (hw : w ∈ as) (hd : PlainWord w) :
    Piece.word w ∈ ps := by
  have hdash : ∀ {a qs o}, Options t p a qs o → a.head? = some '-' := by
    intro a qs o h
    cases h with
    | unknown h => exact h.1
    | _ => rfl
  induction h with
  | nil => cases hw
  | word _ _ ih =>
    rcases List.mem_cons.1 hw with rfl | h
    · simp
    · exact List.mem_cons_of_mem _ (ih h)
  | options ho _ ih =>
    rcases List.mem_cons.1 hw with rfl | h
    · exact absurd (hdash ho) hd
    · exact List.mem_append.2 (Or.inr (ih h))
  | optionsText ho _ _ ih =>
    exfalso
    cases ho with
    | letters h => cases letters_flags_only hp h
    | longAwaits _ _ h1 h2 =>
      rcases h1 with h1 | ⟨_, m, h1, _⟩
      · rw [hp _ h1.1] at h2; cases h2
      · rw [hp _ h1.1] at h2; cases h2
  | dashes =>
    rcases List.mem_cons.1 hw with rfl | h
    · exact absurd rfl hd
    · exact List.mem_cons_of_mem _ (List.mem_map.2 ⟨w, h, rfl⟩)

theorem performed_mem {x : Moment} {update : Bool} {k : Nat} {d : Disk} {names : List Str} {u : Use}
    (h : u ∈ performed x update k d names) : (∃ i, u.net = x.net i) ∧ u.name ∈ names := by
  induction names generalizing k d with
  | nil => cases h
  | cons n ns ih =>
    unfold performed at h
    simp only at h
    split at h
    · rcases List.mem_cons.1 h with rfl | h
      · exact ⟨⟨k, rfl⟩, by simp⟩
      · exact ⟨(ih h).1, List.mem_cons_of_mem _ (ih h).2⟩
    · rw [List.mem_singleton] at h
      subst h
      exact ⟨⟨k, rfl⟩, by simp⟩

/-- **C120**: a set is installed only by a line that begins with `install` and has its name; or without
any name, then it is `main`. -/
theorem session_use {M : Machine} {d : Disk} {l : List (Moment × List Str)} {u : Use}
    (h : u ∈ sessionUses M d l) : ∃ x c rest, (x, c :: rest) ∈ l ∧ Calls c s%"install" ∧
      (∃ i, u.net = x.net i) ∧ (u.name ∈ rest ∨ u.name = s%"main" ∧ ∀ w ∈ rest, ¬ PlainWord w) := by
  induction l generalizing d with
  | nil => cases h
  | cons r l ih =>
    obtain ⟨x, args⟩ := r
    rw [sessionUses] at h
    rcases List.mem_append.1 h with h | h
    · unfold runUses at h
      split at h
      · rename_i names update hm
        obtain ⟨h1, h2⟩ := performed_mem h
        unfold mainCommand at hm
        split at hm
        · cases hm
        · obtain ⟨c, rest, ps, ws, rfl, hc, hps, _, ⟨as, run, bs, hoas, hobs, _, hrun, hws⟩, hn, _⟩ :=
            install_read_iff.1 hm
          refine ⟨x, c, rest, by simp, hc, h1, ?_⟩
          rcases hn with ⟨hempty, rfl⟩ | ⟨_, rfl⟩
          · refine Or.inr ⟨List.mem_singleton.1 h2, fun w hw hd => ?_⟩
            have hm := args_of_word (p := installParser) (by decide) hps hw hd
            rw [hrun] at hm
            simp only [List.mem_append] at hm
            rcases hm with (hm | hm) | hm
            · obtain ⟨_, _, e⟩ := hoas _ hm
              cases e
            · have : w ∈ wordsOf run := List.mem_filterMap.2 ⟨_, hm, rfl⟩
              rw [hws, hempty] at this
              cases this
            · obtain ⟨_, _, e⟩ := hobs _ hm
              cases e
          · left
            refine word_of_args hps ?_
            rw [← hws] at h2
            obtain ⟨y, hy, e⟩ := List.mem_filterMap.1 h2
            have : y = .word u.name := by
              revert e
              cases y <;> simp
            rw [hrun, ← this]
            simp [hy]
      · cases h
    · obtain ⟨x', c, rest, h1, h2⟩ := ih h
      exact ⟨x', c, rest, List.mem_cons_of_mem _ h1, h2⟩

/-! ## the program stays usable -/

theorem nonempty_of_shipped {source user : CacheDir} (hs : Shipped source) {sets : Dict Str FileSet}
    (h : allFileSets source user = .ok sets) : sets ≠ [] := by
  obtain ⟨ss, us, e1, e2, hn, g1, g2⟩ := user_precedence h
  obtain ⟨k, hk, hl⟩ := hs.some
  obtain ⟨o, ho, _⟩ := hs.readable k hl.2
  have hf : ∃ f, Dict.get? ss k = some f := by
    obtain ⟨f, hf⟩ : ∃ f, readInfoFile source.path source.disk k = .ok f := by
      unfold readInfoFile
      rw [show source.disk [k, infoName] = some (.file (.json o)) from ho]
      exact ⟨_, rfl⟩
    exact ⟨f, (allFileSets_get e1 _ _).2 ⟨hk, hl, hf⟩⟩
  rintro rfl
  cases hu : Dict.get? us k with
  | none =>
    have := g2 k hu
    obtain ⟨f, hf⟩ := hf
    rw [hf] at this
    simp [Dict.get?] at this
  | some f =>
    have := g1 k f hu
    simp [Dict.get?] at this

/-- After a session everything that `punx` needs to start is there. -/
theorem session_sets {M : Machine} {d : Disk} {l : List (Moment × List Str)} (hM : Shipped M.source)
    (hd1 : Readable d) (hd2 : TrueNames d) (hu : ∀ u ∈ sessionUses M d l, u.Usual)
    (hok : Untroubled d (sessionUses M d l)) :
    ∃ sets, allFileSets M.source (M.user (session M d l).2) = .ok sets ∧ sets ≠ [] ∧
      (∀ k s, (k, s) ∈ sets → WellDescribed s ∧ s.ref = some k) ∧
      ∃ k s, Latest sets k s ∧ defaultRef M.source (M.user (session M d l).2) = .ok (some k) := by
  obtain ⟨sets, hs, h⟩ := both_caches (source := M.source) (user := M.user (session M d l).2)
    hM.readable hM.names
    (by show Readable (session M d l).2; rw [session_disk]; exact readable_after hu hd1)
    (by show TrueNames (session M d l).2; rw [session_disk]; exact true_names_after_partial hu hd2 hok)
  have hne := nonempty_of_shipped hM hs
  have hdates : ∀ kv ∈ sets, kv.2.lastModified ≠ none := fun kv hkv => (h kv.1 kv.2 hkv).1.1
  obtain ⟨k, s, hl, _⟩ := choose_latest ((comparable_iff hne).2 (Or.inr hdates)) hne none
    (fun _ h => by cases h)
  have hm := h k s (mem_of_latest hl)
  exact ⟨sets, hs, hne, h, k, s, hl,
    default_ref_iff.2 ⟨sets, k, s, hs, Or.inr hdates, hl, Or.inr hm.1.2, hm.2.symm⟩⟩

/-- **C120** (partial: what was downloaded could be put on the disk): after any session `punx
configuration` shows all sets, from the oldest to the newest, and the name of a newest one. -/
theorem session_configuration_partial {M : Machine} {d : Disk} {l : List (Moment × List Str)}
    (hM : Shipped M.source) (hd1 : Readable d) (hd2 : TrueNames d)
    (hu : ∀ u ∈ sessionUses M d l, u.Usual) (hok : Untroubled d (sessionUses M d l))
    {x : Moment} {c : Str} (hc : Calls c s%"configuration") :
    ∃ sets sorted rows k s, allFileSets M.source (M.user (session M d l).2) = .ok sets ∧
      (runMain M x (session M d l).2 [c]).1 = W.tell (.table rows (some k)) ∧
      sorted.Perm sets ∧ sorted.Pairwise (fun a b => ¬ Earlier b.2 a.2) ∧
      List.Forall₂ (fun kv r => r.name = kv.1 ∧ r.path = kv.2.path ∧
        some r.date = kv.2.lastModified) sorted rows ∧
      Latest sets k s := by
  obtain ⟨sets, hs, hne, h, k, s, hl, hdef⟩ := session_sets hM hd1 hd2 hu hok
  obtain ⟨⟨rows, dflt⟩, hr⟩ := (configuration_iff M.source (M.user (session M d l).2)).2
    ⟨sets, hs, hne, fun kv hkv => (h kv.1 kv.2 hkv).1.2, Or.inr fun kv hkv => (h kv.1 kv.2 hkv).1.1⟩
  obtain ⟨sets', sorted, hs', hp, hsort, hf, k', s', hl', rfl⟩ := configuration_shows hr
  rw [hs] at hs'
  cases hs'
  refine ⟨sets, sorted, rows, k', s', hs, ?_, hp, hsort, ?_, hl'⟩
  · unfold runMain mainCommand
    rw [hdef]
    simp only
    rw [configuration_read_iff.2 ⟨c, rfl, hc⟩]
    simp only
    rw [hr, (h k' s' (mem_of_latest hl')).2]
    rfl
  · clear hsort hr
    have hw : ∀ kv ∈ sorted, kv.2.lastModified ≠ none := fun kv hkv =>
      (h kv.1 kv.2 (hp.subset hkv)).1.1
    clear hp
    induction hf with
    | nil => exact .nil
    | cons hab _ ih =>
      rename_i a b l1 l2 _
      refine .cons ⟨hab.1, hab.2.2.1, ?_⟩ (ih fun kv hkv => hw kv (List.mem_cons_of_mem _ hkv))
      rw [hab.2.2.2.1]
      cases hd : a.2.lastModified with
      | none => exact absurd hd (hw a (by simp))
      | some _ => rfl

/-! ## what is validated after a session -/

theorem run_validate {M : Machine} {x : Moment} {d : Disk} {args : List Str} {a : ValidateArgs}
    (h : mainCommand M.texts M.source (M.user d) args = .ok (.validate a)) {act : Act} :
    Shown.act act ∈ (runMain M x d args).1.log ↔ act ∈ (funcValidate (M.world x d) a).log := by
  unfold runMain
  rw [h]
  simp [showActs]

/-- **C120** (partial: what was downloaded could be put on the disk): after any session `punx validate
FILE` shows exactly the lines that are expected with the definitions of the newest set. -/
theorem session_validate_partial {M : Machine} {d : Disk} {l : List (Moment × List Str)}
    (hM : Shipped M.source) (hd1 : Readable d) (hd2 : TrueNames d)
    (hu : ∀ u ∈ sessionUses M d l, u.Usual) (hok : Untroubled d (sessionUses M d l))
    {x : Moment} {c f : Str} (hc : Calls c s%"validate") (hf : IsWord M.texts validateParser f)
    (hdig : M.env.isdigit s%"1" = true) (hn : ∀ file, x.files f = .hdf5 file → WellNamedFile file) :
    ∃ sets k s, allFileSets M.source (M.user (session M d l).2) = .ok sets ∧ Latest sets k s ∧
      (HasDefinitions (M.dir (session M d l).2 s.path) →
       LawfulDocs (M.dir (session M d l).2 s.path) → ∀ fname line,
        (∃ rows sm sc, Shown.act (.report fname rows sm sc) ∈
            (runMain M x (session M d l).2 [c, f]).1.log ∧ line ∈ rows.map lineOf) ↔
          fname = f ∧ ¬ s%".nxdl.xml" <:+ f ∧ ∃ mgr file,
            OwnDefinitions M.lib M.pattern (M.dir (session M d l).2 s.path) mgr ∧
            x.files f = .hdf5 file ∧ Validatable M.env mgr file ∧
            Expected M.env mgr [] file (contents M.env file) line) := by
  obtain ⟨sets, hs, hne, h, k, s, hl, hdef⟩ := session_sets hM hd1 hd2 hu hok
  refine ⟨sets, k, s, hs, hl, fun hdefs hdocs fname line => ?_⟩
  obtain ⟨a, ha, hp⟩ := plain_validate_prints_partial (t := M.texts) (lib := M.lib)
    (pattern := M.pattern) (w := M.disks (session M d l).2) (env := M.env) (files := x.files)
    (upper := M.upper) (abspath := M.abspath) (c := c) (f := f) hs
    (fun kv hkv => (h kv.1 kv.2 hkv).1) hl (h k s (mem_of_latest hl)).2 hdefs hdocs hdig hn hc hf
  simp only [run_validate ha]
  exact hp fname line

theorem one_performed {x : Moment} {d : Disk} {name : Str} :
    installAll x.net x.removal x.written true 0 d [name] =
      Use.alone ⟨x.net 0, x.removal 0 d, x.written 0, name, true⟩ d := by
  unfold installAll Deed.andThen Use.alone
  cases h : downloadFileSet (x.net 0) (x.removal 0 d) (x.written 0) d name true with
  | mk ops res =>
    cases res with
    | error e => rfl
    | ok _ => simp [installAll]

theorem uses_untouched {name : Str} {us : List Use} (hu : ∀ u ∈ us, u.name ≠ name ∧
    ∀ z, u.net 0 = .archive z → ∃ top, OneDirectory z top ∧ top ≠ u.name ∧ top ≠ name) {d : Disk} :
    SameBelow (afterUses d us) d name := by
  induction us generalizing d with
  | nil => exact fun _ => rfl
  | cons u us ih =>
    intro q
    rw [afterUses, ih (fun v hv => hu v (List.mem_cons_of_mem _ hv))]
    obtain ⟨h1, h2⟩ := hu u (by simp)
    rcases download_ops (net := u.net) (rm := u.rm) (w := u.written) (d := d) (name := u.name)
      (replace := u.update) with ⟨z, hz, _, _⟩ | h0
    · obtain ⟨top, ho, hne, ht⟩ := h2 z hz
      exact other_sets_untouched hz ho hne (stops_end _ _) (Ne.symm h1) (Ne.symm ht) q
    · rw [h0]; rfl

/-- **C120** (partial: the old set can be removed, what was downloaded could be put on the disk): `punx
install -u NAME` reports success; then, whatever is done that does not install this set again, `punx
validate FILE -f NAME` shows exactly the lines that are expected with the definitions of the
archive. -/
theorem install_then_validate_partial {lx : Lxml} {M : Machine} (hM : Shipped M.source)
    {d : Disk} (hd1 : Readable d) (hd2 : TrueNames d)
    -- the installation
    {x : Moment} {c name : Str} (hc : Calls c s%"install") (hname : PlainWord name)
    {z : Archive} {top : Str} (hz : x.net 0 0 = .archive z) (ho : OneDirectory z top)
    (hne : top ≠ name) (hinfo : ∀ m ∈ z.members, infoName ∉ extractPath m.name)
    (hrm : RemovesAll (x.removal 0 d) d name) (htop : Gone d top)
    (hres : (runMain M x d [c, s%"-u", name]).1.res = .ok ())
    {sa : SetDir} (ha : ArchiveDir lx z top sa) (hdef : HasDefinitions sa) (hlaw : LawfulDocs sa)
    -- other runs
    {l : List (Moment × List Str)} {d' d'' : Disk} (hd' : d' = (runMain M x d [c, s%"-u", name]).2)
    (hd'' : d'' = (session M d' l).2)
    (hother : ∀ u ∈ sessionUses M d' l, u.name ≠ name ∧ ∀ z, u.net 0 = .archive z →
      ∃ top, OneDirectory z top ∧ top ≠ u.name ∧ top ≠ name ∧
        ∀ m ∈ z.members, infoName ∉ extractPath m.name)
    (hok : Untroubled d' (sessionUses M d' l))
    -- the validation
    (hH : Honest lx M d'' name) {y : Moment} {c' f : Str} (hc' : Calls c' s%"validate") (hf : PlainWord f)
    (hdig : M.env.isdigit s%"1" = true) (hn : ∀ file, y.files f = .hdf5 file → WellNamedFile file)
    (fname : Str) (line : Line) :
    (∃ rows sm sc, Shown.act (.report fname rows sm sc) ∈
        (runMain M y d'' [c', f, s%"-f", name]).1.log ∧ line ∈ rows.map lineOf) ↔
      fname = f ∧ ¬ s%".nxdl.xml" <:+ f ∧ ∃ mgr file, OwnDefinitions M.lib M.pattern sa mgr ∧
        y.files f = .hdf5 file ∧ Validatable M.env mgr file ∧
        Expected M.env mgr [] file (contents M.env file) line := by
  -- the line of the installation
  have hline : mainCommand M.texts M.source (M.user d) [c, s%"-u", name] = .ok (.install [name] true) := by
    obtain ⟨sets, hs, hne, h, k, s, hl, hdef⟩ := session_sets (l := []) hM hd1 hd2
      (by intro u hu; cases hu) trivial
    unfold mainCommand
    rw [show defaultRef M.source (M.user d) = .ok (some k) from hdef]
    have := install_usage (t := M.texts) (ref := some k) (c := c) (names := [name])
      (xs := [.u]) (ys := []) hc (by simpa using hname)
    simpa [InstallOption.written] using this
  have hrun : (runMain M x d [c, s%"-u", name]).2 =
      applyAll d (Use.alone ⟨x.net 0, x.removal 0 d, x.written 0, name, true⟩ d).ops := by
    unfold runMain
    rw [hline]
    simp only [one_performed]
  have hres' : (Use.alone ⟨x.net 0, x.removal 0 d, x.written 0, name, true⟩ d).res = .ok () := by
    unfold runMain at hres
    rw [hline] at hres
    simp only [funcInstall, one_performed, show (M.user d).disk = d from rfl] at hres
    cases hr : (Use.alone ⟨x.net 0, x.removal 0 d, x.written 0, name, true⟩ d).res with
    | ok _ => rfl
    | error e =>
      exfalso
      rw [hr] at hres
      revert hres
      unfold showTable
      split <;> rename_i h <;> intro hres
      · cases hres
      · split at h
        · cases h
        · split at h <;> cases h
  generalize hU : (⟨x.net 0, x.removal 0 d, x.written 0, name, true⟩ : Use) = U at hrun hres'
  have hUname : U.name = name := by rw [← hU]
  have hUnet : U.net 0 = .archive z := by rw [← hU]; exact hz
  have hUrm : U.rm = x.removal 0 d := by rw [← hU]
  have hUup : U.update = true := by rw [← hU]
  have huses : sessionUses M d ((x, [c, s%"-u", name]) :: l) = U :: sessionUses M d' l := by
    have h1 : runUses M x d [c, s%"-u", name] = [U] := by
      unfold runUses
      rw [hline]
      simp only [performed, hU]
      rw [hres']
    rw [sessionUses]
    rw [← run_disk, ← hd', h1]
    rfl
  have hsess : (session M d ((x, [c, s%"-u", name]) :: l)).2 = d'' := by
    rw [session]
    simp only
    rw [← hd', hd'']
  have hafter : (applyAll d (U.alone d).ops) = d' := by rw [hd', hrun]
  obtain ⟨sets, hs, _, h, k, s, hl, hdefault⟩ := session_sets
    (l := (x, [c, s%"-u", name]) :: l) hM hd1 hd2
    (by
      rw [huses]
      intro u hu
      rcases List.mem_cons.1 hu with rfl | hu
      · intro z' hz'
        rw [hUnet] at hz'
        cases hz'
        exact ⟨top, ho, by rw [hUname]; exact hne, hinfo⟩
      · intro z' hz'
        obtain ⟨top', h1, h2, _, h3⟩ := (hother u hu).2 z' hz'
        exact ⟨top', h1, h2, h3⟩)
    (by
      rw [huses]
      refine ⟨fun _ => ?_, ?_⟩
      · have := hres'
        unfold Use.alone at this
        rw [this]
        simp
      · have := hafter
        unfold Use.alone at this
        rw [this]
        exact hok)
  rw [hsess] at hs hdefault
  have hsame : SameBelow d'' d' name := by
    rw [hd'', session_disk]
    refine uses_untouched fun u hu => ⟨(hother u hu).1, fun z' hz' => ?_⟩
    obtain ⟨top', h1, h2, h3, _⟩ := (hother u hu).2 z' hz'
    exact ⟨top', h1, h2, h3⟩
  have hcont : ∀ q, q ≠ [infoName] → ∀ o, ArchiveHas z top q o → d'' (name :: q) = o := by
    intro q hq o h
    rw [hsame q, ← hUname]
    exact installed_content hUnet ho (by rw [hUname]; exact hne) (by rw [hUrm, hUname]; exact hrm)
      (Or.inl hUup) htop hres' hafter.symm hq h
  obtain ⟨hdir', _, o, _, hinfo', _⟩ := (install_success_partial (d := d) (s := d') hUnet ho
    (by rw [hUname]; exact hne) (by rw [hUrm, hUname]; exact hrm) (Or.inl hUup) hres' hafter.symm).1
  rw [hUname] at hdir' hinfo'
  -- the line of the validation
  have hv : mainCommand M.texts M.source (M.user d'') [c', f, s%"-f", name] =
      .ok (.validate ⟨f, some name, s%"COMMENT,ERROR,NOTE,OK,OPTIONAL,TODO,UNUSED,WARN"⟩) := by
    unfold mainCommand
    rw [hdefault]
    have := validate_usage (t := M.texts) (ref := some k) (c := c') (infile := f)
      (xs := []) (ys := [.f name]) hc' hf (by simpa [ValidateOption.Plain] using hname)
    simpa [ValidateOption.written, ValidateOption.set] using this
  simp only [run_validate hv]
  have hopt := demo_option
  have hall : (join s%"," (sortBy strLe (Status.all.map Status.key))) =
      s%"COMMENT,ERROR,NOTE,OK,OPTIONAL,TODO,UNUSED,WARN" := by decide +kernel
  rw [hall] at hopt
  obtain ⟨o1, o2, o3⟩ := hopt
  have key := validate_with_archive (lib := M.lib) (pattern := M.pattern) (w := M.disks d'')
    (env := M.env) (files := y.files) (upper := M.upper) (abspath := M.abspath)
    (a := ⟨f, some name, s%"COMMENT,ERROR,NOTE,OK,OPTIONAL,TODO,UNUSED,WARN"⟩) hcont
    (show d'' [name] = some .dir by rw [hsame []]; exact hdir')
    ⟨o, show d'' [name, infoName] = _ by rw [hsame [infoName]]; exact hinfo'⟩
    (show name ∈ M.ls d'' from (hH.ls name).2 (by rw [hsame [], hdir']; simp))
    hs (fun kv hkv => (h kv.1 kv.2 hkv).1) hH.dir ha hdef hlaw rfl o1 hdig hn fname line
  rw [show M.world y d'' = commandWorld M.lib M.pattern (M.disks d'') M.env y.files M.upper M.abspath
    from rfl, key]
  constructor
  · rintro ⟨h1, _, h2, _, h3⟩
    exact ⟨h1, h2, h3⟩
  · rintro ⟨h1, h2, h3⟩
    exact ⟨h1, o2, h2, o3 _, h3⟩

end Punx
