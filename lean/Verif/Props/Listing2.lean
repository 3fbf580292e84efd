import Verif.Props.Listing

/-!
# A listing of the cache while sets are installed: the properties (C112)
-/

namespace Punx

open Spec

/-! ## a new set appears at the very end -/

/-- As long as there is nothing with this name, the process does nothing with it, except with its
very last operation, after which it ends with success. -/
inductive Late (name : Str) : Prog → Prop
  | done (r : Except PyErr Unit) : Late name (.done r)
  | look {k : Disk → Prog} : (∀ d, d [name] = none → Late name (k d)) → Late name (.look k)
  | act {o : Op} {k : Prog} : OpBelow (· ≠ name) o → Late name k → Late name (.act o k)
  | last (o : Op) : Late name (.act o (.done (.ok ())))

theorem late_makeDirs {name : Str} {k : Prog} (hk : Late name k) {pre ws : FPath}
    (h : ∀ q, q <+: ws → q ≠ [] → Below (· ≠ name) (pre ++ q)) :
    Late name (makeDirsProc pre k ws) := by
  induction ws generalizing pre with
  | nil => exact hk
  | cons w ws ih =>
    have h1 : Below (· ≠ name) (pre ++ [w]) := h [w] (by simp) (by simp)
    have h2 : Late name (makeDirsProc (pre ++ [w]) k ws) := by
      refine ih fun q hq hne => ?_
      have := h (w :: q) (by simpa using hq) (by simp)
      simpa using this
    rw [makeDirsProc]
    refine .look fun d _ => ?_
    split
    · exact h2
    · exact .act h1 h2

theorem late_extract {name : Str} {m : ZipMember} {k : Prog} (hk : Late name k)
    (h : Below (· ≠ name) (extractPath m.name)) : Late name (extractProc m k) := by
  have hp : ∀ q, q <+: (extractPath m.name).dropLast → q ≠ [] → Below (· ≠ name) ([] ++ q) := by
    intro q hq hne
    obtain ⟨x, r, hx, hkx⟩ := h
    cases q with
    | nil => exact absurd rfl hne
    | cons y q =>
      have := hq.trans (List.dropLast_prefix _)
      rw [hx, List.cons_prefix_cons] at this
      exact ⟨y, q, rfl, this.1 ▸ hkx⟩
  unfold extractProc
  refine .look fun d _ => ?_
  split
  · exact .done _
  · refine late_makeDirs (.look fun d _ => ?_) hp
    split
    · split
      · exact .act h hk
      · exact hk
      · exact .done _
    · split
      · exact .done _
      · exact .act h (.act h hk)

theorem late_extractAll {name : Str} {z : Archive} {es ps : List Str} {k : Date → Nat → Prog}
    (hk : ∀ dt n, Late name (k dt n)) (items : List Str)
    (h : ∀ m ∈ z.members, Below (· ≠ name) (extractPath m.name)) (dt : Date) (n : Nat) :
    Late name (extractAllProc z es ps dt n k items) := by
  induction items generalizing dt n with
  | nil => exact hk _ _
  | cons i is ih =>
    rw [extractAllProc]
    split
    · split
      · exact .done _
      · rename_i m hm
        exact late_extract (ih _ _) (h m (getinfo_member hm))
    · exact ih _ _

theorem late_move (top name : Str) : Late name (moveProc top name) := by
  refine .look fun d hd => ?_
  rw [hd]
  simp only
  split
  · exact .last _
  · exact .done _

theorem late_replace (rm : Removal) (top name : Str) : Late name (replaceProc rm top name) := by
  refine .look fun d hd => ?_
  rw [if_neg (by rw [isDir_iff, hd]; simp)]
  exact late_move top name

/-- A first installation makes the directory of the set with its last operation. -/
theorem late_install {u : Use} (hu : u.Tidy)
    (hne : ∀ z top, u.net 0 = .archive z → OneDirectory z top → top ≠ u.name) :
    Late u.name u.proc := by
  refine .look fun d _ => ?_
  split
  · exact .done _
  · unfold downloadArchive requestLoop
    cases hz : u.net 0 with
    | connectionError => exact .done _
    | otherError => exact .done _
    | archive z =>
      simp only
      obtain ⟨top, ho⟩ := hu z hz
      have hne := hne z top hz ho
      unfold unpackProc
      cases hm : z.members with
      | nil => exact .done _
      | cons m ms =>
        have htop : firstComp '/' m.name = top := by
          obtain ⟨m', ms', he, hf⟩ := oneDirectory_first ho
          rw [hm] at he
          cases he
          exact hf
        simp only [htop]
        refine late_extractAll (fun dt n => ?_) _ (fun m' hm' => ?_) _ _
        · split
          · exact .done _
          · split
            · exact .done _
            · refine .look fun d _ => ?_
              split
              · exact .done _
              · exact .act ⟨_, _, rfl, hne⟩ (.act ⟨_, _, rfl, hne⟩ (late_replace _ _ _))
        · obtain ⟨r, hr⟩ := oneDirectory_path ho hm'
          exact ⟨top, r, hr, hne⟩

theorem Late.step {name : Str} {p : Prog} (h : Late name p) {d d' : Disk} {p' : Prog}
    (hd : Gone d name) (hs : p.step d = some (d', p')) :
    (Gone d' name ∧ Late name p') ∨ p' = .done (.ok ()) := by
  cases h with
  | done => cases hs
  | look h1 => cases hs; exact Or.inl ⟨hd, h1 _ (hd [])⟩
  | @act o k h1 h2 =>
    rw [Prog.step] at hs
    cases ho : o.attempt d with
    | none => rw [ho] at hs; cases hs; exact Or.inl ⟨hd, .done _⟩
    | some d1 =>
      rw [ho] at hs
      cases hs
      refine Or.inl ⟨fun q => ?_, h2⟩
      rw [(opLocal h1).2 d _ ho, hd q]
      rintro ⟨k, r, h3, h4⟩
      cases h3
      exact h4 rfl
  | last o =>
    rw [Prog.step] at hs
    cases ho : o.attempt d with
    | none => rw [ho] at hs; cases hs; exact Or.inl ⟨hd, .done _⟩
    | some d1 => rw [ho] at hs; cases hs; exact Or.inr rfl

/-- While a set is installed for the first time there is nothing with its name, until the
installation has ended with success. -/
theorem new_until_end {ι : Type} [DecidableEq ι] {us : ι → Use} (ht : ∀ i, (us i).Tidy)
    (ha : Apart us) {d : Disk} {i : ι}
    (hne : ∀ z top, (us i).net 0 = .archive z → OneDirectory z top → top ≠ (us i).name)
    (hd : Gone d (us i).name) {e : Disk} {qs : ι → Prog}
    (h : Arrives d (fun i => (us i).proc) e qs) :
    Gone e (us i).name ∨ qs i = .done (.ok ()) := by
  suffices H : (∀ j, Local (us j).Owns (qs j)) ∧
      ((Gone e (us i).name ∧ Late (us i).name (qs i)) ∨ qs i = .done (.ok ())) by
    rcases H.2 with h | h
    · exact Or.inl h.1
    · exact Or.inr h
  induction h with
  | start => exact ⟨fun j => local_install (ht j), Or.inl ⟨hd, late_install (ht i) hne⟩⟩
  | @next e qs j e' q _ hs ih =>
    obtain ⟨h1, h2⟩ := ih
    obtain ⟨h3, h4, _⟩ := (h1 j).step (fun _ _ => rfl) hs
    refine ⟨fun j' => ?_, ?_⟩
    · by_cases hj : j' = j
      · subst hj; rw [Function.update_self]; exact h3
      · rw [Function.update_of_ne hj]; exact h1 j'
    · by_cases hj : i = j
      · subst hj
        rw [Function.update_self]
        rcases h2 with ⟨h5, h6⟩ | h5
        · exact h6.step h5 hs
        · rw [h5] at hs; cases hs
      · rw [Function.update_of_ne hj]
        refine h2.imp_left fun ⟨h5, h6⟩ => ⟨fun q => ?_, h6⟩
        rw [h4 _ fun hq => hj (apart_owns ha i j _ ⟨_, _, rfl, Or.inl rfl⟩ hq), h5 q]

/-- A process that has ended does nothing more. -/
theorem done_stays {ι : Type} [DecidableEq ι] {d e : Disk} {ps qs : ι → Prog}
    (h : Arrives d ps e qs) {i : ι} {r : Except PyErr Unit} (hr : ps i = .done r) :
    qs i = .done r := by
  induction h with
  | start => exact hr
  | @next e qs j e' q _ hs ih =>
    by_cases hj : i = j
    · subst hj; rw [ih] at hs; cases hs
    · rw [Function.update_of_ne hj]; exact ih

theorem unique_top {z : Archive} {top top' : Str} (ho : OneDirectory z top)
    (ho' : OneDirectory z top') : top' = top := by
  obtain ⟨m, ms, h1, h2⟩ := oneDirectory_first ho
  obtain ⟨m', ms', h3, h4⟩ := oneDirectory_first ho'
  rw [h1] at h3
  cases h3
  rw [← h2, ← h4]

/-- Once something is there with the name of a new set, the set is complete and stays so. -/
theorem new_appears {ι : Type} [DecidableEq ι] {us : ι → Use} (ht : ∀ i, (us i).Tidy)
    (ha : Apart us) {d : Disk} {i : ι} {z : Archive} {top : Str}
    (hz : (us i).net 0 = .archive z) (ho : OneDirectory z top) (hne : top ≠ (us i).name)
    (hd : Gone d (us i).name) {e e' : Disk} {qs qs' : ι → Prog}
    (h : Arrives d (fun i => (us i).proc) e qs) (h' : Arrives e qs e' qs')
    (hp : e [(us i).name] ≠ none) :
    SameBelow e' e (us i).name ∧ Complete z top (us i).name e' [(us i).name] ∧
      qs' i = .done (.ok ()) := by
  have hne' : ∀ z top, (us i).net 0 = .archive z → OneDirectory z top → top ≠ (us i).name := by
    intro z' top' hz' ho'
    rw [hz] at hz'
    cases hz'
    rw [unique_top ho ho']
    exact hne
  rcases new_until_end ht ha hne' hd h with h1 | hr
  · exact absurd (h1 []) hp
  · have hr' := done_stays h' hr
    obtain ⟨h2, h3⟩ := installs_independent ht ha h i hr
    obtain ⟨h4, h5⟩ := installs_independent ht ha (h.trans h') i hr'
    refine ⟨fun q => ?_, ?_, hr'⟩
    · have hq : (us i).Owns ((us i).name :: q) := ⟨_, _, rfl, Or.inl rfl⟩
      rw [h5 _ hq, h3 _ hq]
    · exact installs_complete ht ha (h.trans h') i hr' hz ho hne (fun q hq => absurd (hd q) hq)
        (Or.inr (hd []))

/-! ## C112 -/

theorem readInfo_ok {path k : Str} {e : Disk} {s : FileSet} :
    readInfoFile path e k = .ok s ↔ ∃ o, Described e k o ∧ FromInfo path k o s ∧
      s.cache = if findPositive s%"punx/cache" s.path then s%"source" else s%"user" := by
  unfold readInfoFile Described FromInfo
  constructor
  · intro h
    split at h
    · cases h
    · cases h
    · cases h
    · rename_i o ho
      cases h
      exact ⟨o, ho, ⟨by simp, by simp, rfl, rfl, rfl, rfl⟩, rfl⟩
  · rintro ⟨o, ho, ⟨h1, h2, h3, h4, h5, h6⟩, h7⟩
    rw [ho]
    simp only [Except.ok.injEq]
    have h1' : s.path = path ++ '/' :: k := by rw [h1]; simp
    cases s
    simp only at *
    subst h1' h3 h4 h5 h6
    rw [h2, h7]
    simp

theorem readInfo_congr {path k : Str} {d e : Disk} (h : e [k, infoName] = d [k, infoName]) :
    readInfoFile path e k = readInfoFile path d k := by
  unfold readInfoFile
  rw [h]

/-- **C112** (what holds): a listing while any sets are installed or updated, also the same one
several times.  If it ends, every set that no installation has to do with is listed exactly if it is
there, as its info file describes it. -/
theorem listing_others_partial {ι : Type} [DecidableEq ι] {us : ι → Use} (ht : ∀ i, (us i).Tidy)
    {d e e' : Disk} {qs qs' : ι → Prog} (h0 : Arrives d (fun i => (us i).proc) e qs) {path : Str}
    {names : List Str} {sets : Dict Str FileSet}
    (h : Watches e qs (listLook path names []) e' qs' (.done (.ok sets))) {k : Str}
    (hk : ∀ i, ¬ (us i).Dirs k) (s : FileSet) :
    Dict.get? sets k = some s ↔ k ∈ names ∧ d [k] = some .dir ∧
      ∃ o, Described d k o ∧ FromInfo path k o s ∧
        s.cache = if findPositive s%"punx/cache" s.path then s%"source" else s%"user" := by
  have same : ∀ {e qs}, Arrives d (fun i => (us i).proc) e qs → ∀ q, e (k :: q) = d (k :: q) := by
    intro e qs ha q
    refine installs_elsewhere_partial ht ha fun i hi => ?_
    obtain ⟨k', r, he, hd⟩ := hi
    cases he
    exact hk i hd
  have sound : ∀ {s}, Dict.get? sets k = some s → k ∈ names ∧ d [k] = some .dir ∧
      readInfoFile path d k = .ok s := by
    intro s hs
    rcases listing_sound h hs with h1 | ⟨h1, e1, qs1, e3, qs3, h2, h3, h4, h5, _⟩
    · cases h1
    · refine ⟨h1, ?_, ?_⟩
      · rw [← same (h0.trans h2) []]; exact isDir_iff.1 h3
      · rw [← h5]; exact (readInfo_congr (same ((h0.trans h2).trans h4) _)).symm
  rw [← readInfo_ok]
  refine ⟨sound, fun ⟨h1, h2, h3⟩ => ?_⟩
  have hne : Dict.get? sets k ≠ none := by
    refine listing_complete h (Or.inl h1) fun a as hz => ?_
    refine ⟨isDir_iff.2 ((same (h0.trans hz) []).trans h2), ?_⟩
    rw [Disk.has, same (h0.trans hz) [infoName]]
    obtain ⟨o, ho, _⟩ := readInfo_ok.1 h3
    rw [show d [k, infoName] = _ from ho]
    rfl
  cases hg : Dict.get? sets k with
  | none => exact absurd hg hne
  | some s' =>
    have := (sound hg).2.2
    rw [h3] at this
    cases this
    rfl

/-- **C112** (what holds): a listing while different sets are installed.  A set that was not there
before is listed only if its installation has succeeded; it is then complete, and what is listed is
what its info file says. -/
theorem listing_new_partial {ι : Type} [DecidableEq ι] {us : ι → Use} (ht : ∀ i, (us i).Tidy)
    (ha : Apart us) {d e e' : Disk} {qs qs' : ι → Prog}
    (h0 : Arrives d (fun i => (us i).proc) e qs) {path : Str} {names : List Str}
    {sets : Dict Str FileSet}
    (h : Watches e qs (listLook path names []) e' qs' (.done (.ok sets))) {i : ι} {z : Archive}
    {top : Str} (hz : (us i).net 0 = .archive z) (ho : OneDirectory z top)
    (hne : top ≠ (us i).name) (hd : Gone d (us i).name) :
    (∀ s, Dict.get? sets (us i).name = some s →
      qs' i = .done (.ok ()) ∧ Complete z top (us i).name e' [(us i).name] ∧
      ∃ o, Described e' (us i).name o ∧ FromInfo path (us i).name o s) ∧
    ((us i).name ∈ names → qs i = .done (.ok ()) → Dict.get? sets (us i).name ≠ none) := by
  constructor
  · intro s hs
    rcases listing_sound h hs with h1 | ⟨_, e1, qs1, e3, qs3, h2, h3, h4, h5, h6⟩
    · cases h1
    · have hp : e1 [(us i).name] ≠ none := by rw [isDir_iff.1 h3]; simp
      obtain ⟨h7, h8, h9⟩ := new_appears ht ha hz ho hne hd (h0.trans h2) (h4.trans h6) hp
      obtain ⟨h10, _⟩ := new_appears ht ha hz ho hne hd (h0.trans h2) h4 hp
      refine ⟨h9, h8, ?_⟩
      obtain ⟨o, h11, h12, _⟩ := readInfo_ok.1 h5
      refine ⟨o, ?_, h12⟩
      unfold Described at h11 ⊢
      rw [h7 [infoName], ← h10 [infoName]]
      exact h11
  · intro hn hq
    have hc := installs_complete ht ha h0 i hq hz ho hne (fun q hq => absurd (hd q) hq)
      (Or.inr (hd []))
    have hp : e [(us i).name] ≠ none := by rw [hc.1]; simp
    refine listing_complete h (Or.inl hn) fun a as haa => ?_
    obtain ⟨_, h8, _⟩ := new_appears ht ha hz ho hne hd h0 haa hp
    refine ⟨isDir_iff.2 h8.1, ?_⟩
    obtain ⟨_, _, o, _, h9, _⟩ := h8
    rw [Disk.has, show a [(us i).name, infoName] = _ from h9]
    rfl

/-- **C112** (what holds): a listing while different sets are installed that were not there before.
If all info files that are there can be read, the listing can only fail because of the directory of
an archive that is being unpacked. -/
theorem listing_fails_partial {ι : Type} [DecidableEq ι] {us : ι → Use}
    (ht : ∀ i, (us i).Tidy) (ha : Apart us) {d e e' : Disk} {qs qs' : ι → Prog}
    (hd : ∀ i, Gone d (us i).name) (hread : ∀ k, IsListed d k → ∃ o, Described d k o)
    (h0 : Arrives d (fun i => (us i).proc) e qs) {path : Str} {names : List Str} {y : PyErr}
    (h : Watches e qs (listLook path names []) e' qs' (.done (.error y))) :
    ∃ i z m ms, (us i).net 0 = .archive z ∧ z.members = m :: ms ∧
      firstComp '/' m.name ∈ names := by
  obtain ⟨k, hk, e1, qs1, e2, qs2, e3, qs3, h1, h2, h3, h4, h5, h6⟩ := listing_error h
  by_contra hc
  have htop : ∀ i z m ms, (us i).net 0 = .archive z → z.members = m :: ms →
      k ≠ firstComp '/' m.name := by
    rintro i z m ms hz hm rfl
    exact hc ⟨i, z, m, ms, hz, hm, hk⟩
  have nothing : ∀ i, (∀ z, (us i).net 0 ≠ .archive z) → e1 [(us i).name] = none := by
    intro i hi
    obtain ⟨s, hs, hag⟩ := (installs_meanwhile ht ha (h0.trans h1)).1 i
    rw [hag _ ⟨_, _, rfl, Or.inl rfl⟩, failed_download_untouched hi hs]
    exact hd i []
  by_cases hown : ∃ i, (us i).name = k
  · obtain ⟨i, hi⟩ := hown
    have hp : e1 [(us i).name] ≠ none := by rw [hi, isDir_iff.1 h2]; simp
    cases hz : (us i).net 0 with
    | archive z =>
      obtain ⟨top, ho⟩ := ht i z hz
      obtain ⟨m, ms, hm, hf⟩ := oneDirectory_first ho
      have hne : top ≠ (us i).name := by
        rw [hi, ← hf]; exact (htop i z m ms hz hm).symm
      obtain ⟨_, ⟨_, _, o, _, h9, _⟩, _⟩ :=
        new_appears ht ha hz ho hne (hd i) (h0.trans h1) (h3.trans h5) hp
      rw [hi] at h9
      rw [readInfoFile, show e3 [k, infoName] = _ from h9] at h6
      cases h6
    | connectionError => exact hp (nothing i fun z hz' => by rw [hz] at hz'; cases hz')
    | otherError x => exact hp (nothing i fun z hz' => by rw [hz] at hz'; cases hz')
  · have same : ∀ {e qs}, Arrives d (fun i => (us i).proc) e qs → ∀ q, e (k :: q) = d (k :: q) := by
      intro e qs haa q
      refine installs_elsewhere_partial ht haa fun i hi => ?_
      obtain ⟨k', r, he, hdi⟩ := hi
      cases he
      rcases hdi with hdi | ⟨z, m, ms, hz, hm, hdi⟩
      · exact hown ⟨i, hdi.symm⟩
      · exact htop i z m ms hz hm hdi
    have hl : IsListed d k := by
      refine ⟨?_, ?_⟩
      · rw [← same (h0.trans h1) []]; exact isDir_iff.1 h2
      · rw [← same ((h0.trans h1).trans h3) [infoName]]
        intro hn
        rw [Disk.has, hn] at h4
        cases h4
    obtain ⟨o, ho⟩ := hread k hl
    rw [readInfo_congr (same (((h0.trans h1).trans h3).trans h5) [infoName]), readInfoFile,
      show d [k, infoName] = _ from ho] at h6
    cases h6

end Punx
