import Verif.Props.Attribute2
import Verif.Props.ItemName2

/-!
# C19: the target attribute
-/

namespace Punx
open Spec

theorem slashed_split (t : Str) : slashed (split '/' t) = '/' :: t := by
  induction t with
  | nil => rfl
  | cons c cs ih =>
    by_cases hc : c = '/'
    · subst hc
      rw [split_cons_sep]
      show '/' :: slashed (split '/' cs) = _
      rw [ih]
    · obtain ⟨w, ws, h1, h2⟩ := split_cons_ne hc cs
      rw [h1] at ih
      rw [h2]
      simp only [slashed, List.flatMap_cons, List.cons_append, List.cons.injEq, true_and] at ih
      simp [slashed, ih]

theorem split_slashed {parts : List Str} (h : ∀ p ∈ parts, '/' ∉ p) :
    split '/' (slashed parts) = [] :: parts := by
  induction parts with
  | nil => rfl
  | cons p ps ih =>
    have h1 := h p (by simp)
    have h2 := ih (fun q hq => h q (by simp [hq]))
    show split '/' ('/' :: (p ++ slashed ps)) = _
    rw [split_cons_sep]
    cases ps with
    | nil => simp [slashed, split_noSep h1]
    | cons q qs =>
      have : slashed (q :: qs) = '/' :: (q ++ slashed qs) := rfl
      rw [this, split_append_sep h1]
      rw [this, split_cons_sep] at h2
      injection h2 with _ h2
      rw [h2]

theorem pathParts_slashed {parts : List Str} (h : ∀ p ∈ parts, SimpleName p) :
    pathParts (slashed parts) = parts := by
  rw [pathParts, split_slashed (fun p hp => (h p hp).2.1)]
  rw [List.filter_cons_of_neg (by simp), List.filter_eq_self]
  intro p hp
  simpa using ⟨(h p hp).1, (h p hp).2.2⟩

theorem matchKey_isSome (ctx : Ctx) (p : Str) :
    (∃ k, matchKey ctx p = some k) ↔ NameOk ctx.env ctx.mgr p := by
  rw [NameOk]
  rcases matchKey_cases ctx p with ⟨h1, h2⟩ | ⟨h1, h2, k, h3, h4⟩ | ⟨h1, h2, h3⟩
  · exact ⟨fun _ => .inl h1, fun _ => ⟨_, h2⟩⟩
  · exact ⟨fun _ => .inr h2, fun _ => ⟨_, h3⟩⟩
  · rw [h3]
    simp [h1, h2]

theorem pathOk_cons (env : Env) (mgr : Manager) (f : H5File) (done : List Str) (p : Str)
    (ps : List Str) : PathOk env mgr f done (p :: ps) ↔
      NameOk env mgr p ∧ h5contains f f.root (slashed (done ++ [p])) = true ∧
        PathOk env mgr f (done ++ [p]) ps := by
  constructor
  · intro h
    have h0 := h [] p ps rfl
    simp only [List.append_nil] at h0
    refine ⟨h0.1, h0.2, ?_⟩
    intro pre q post e
    have := h (p :: pre) q post (by rw [e]; rfl)
    simpa using this
  · rintro ⟨h1, h2, h3⟩ pre q post e
    cases pre with
    | nil =>
      injection e with e1 e2
      subst e1
      simpa using ⟨h1, h2⟩
    | cons r pre =>
      injection e with e1 e2
      subst e1
      simpa using h3 pre q post e2

theorem targetLoop_spec {env : Env} {mgr : Manager} {mins : Dict (Str × Str) Int} {f : H5File}
    (it : Item) (done ps : List Str) :
    (PathOk env mgr f done ps →
      (targetLoop (mkCtx env mgr mins f) it (slashed done) ps).res = .ok true ∧
      findings (targetLoop (mkCtx env mgr mins f) it (slashed done) ps).log = []) ∧
    (¬ PathOk env mgr f done ps →
      (targetLoop (mkCtx env mgr mins f) it (slashed done) ps).res = .ok false ∧
      ∃ c, findings (targetLoop (mkCtx env mgr mins f) it (slashed done) ps).log =
        [⟨it.addr, s%"attribute value", .error, c⟩]) := by
  induction ps generalizing done with
  | nil =>
    refine ⟨fun _ => ⟨rfl, rfl⟩, fun h => absurd ?_ h⟩
    intro pre p post e
    simp at e
  | cons p ps ih =>
    rw [pathOk_cons, targetLoop]
    have hk := matchKey_isSome (mkCtx env mgr mins f) p
    have hk' : (∃ k, matchKey (mkCtx env mgr mins f) p = some k) ↔ NameOk env mgr p := hk
    cases hm : matchKey (mkCtx env mgr mins f) p with
    | none =>
      have hno : ¬ NameOk env mgr p := by rw [← hk', hm]; simp
      refine ⟨fun h => absurd h.1 hno, fun _ => ⟨rfl,
        s%"value must match with a NeXus validItemName", ?_⟩⟩
      simp only
      rw [findings_record_bind]
      rfl
    | some k =>
      have hyes : NameOk env mgr p := hk'.1 ⟨k, hm⟩
      have hs : slashed done ++ s%"/" ++ p = slashed (done ++ [p]) := by
        simp [slashed]
      simp only [hs]
      by_cases hc : h5contains (mkCtx env mgr mins f).file (mkCtx env mgr mins f).file.root
          (slashed (done ++ [p])) = true
      · rw [if_pos hc]
        have hc' : h5contains f f.root (slashed (done ++ [p])) = true := hc
        obtain ⟨i1, i2⟩ := ih (done ++ [p])
        refine ⟨fun h => i1 h.2.2, fun h => i2 (fun h3 => h ⟨hyes, hc', h3⟩)⟩
      · rw [if_neg hc]
        refine ⟨fun h => absurd h.2.1 hc, fun _ => ⟨rfl,
          s%"partial HDF5 address not found in file: " ++ slashed (done ++ [p]), ?_⟩⟩
        rw [findings_record_bind]
        rfl

/-- C19, exact rule: in a completed validation a `target` attribute is text and gets exactly one
finding: OK if it starts with "/", all components are valid names, every leading part exists
and the whole exists; otherwise ERROR. -/
theorem target_verdict {env : Env} {mgr : Manager} {mins : Dict (Str × Str) Int}
    {f : H5File} (h : (validateOpen env mgr mins f).res = .ok ()) {it : Item}
    (hit : it ∈ (catalog env f).log) {v : Val} (hobj : it.obj = .val v) {a : Str}
    (ha : it.addr = some a) (hn : it.name = s%"target") :
    ∃ t st c, TextOf env v t ∧
      attrFindings (validateOpen env mgr mins f).log it.oid =
        [⟨some a, s%"attribute value", st, c⟩] ∧
      (st = .ok ∨ st = .error) ∧
      (st = .ok ↔ ∃ u, t = '/' :: u ∧ PathOk env mgr f [] (split '/' u) ∧
        h5contains f f.root t = true) := by
  obtain ⟨owner, _, _, _, hp, _, _, _, _, _, _, _, _⟩ :=
    attr_shape (catalogued (completed h).catalog hit) hobj ha
  obtain ⟨hok, e⟩ := attrFindings_run h hit
  rw [attrFindings, e]
  rw [attributeVerify_attr h hit hobj ha hp, hn] at hok ⊢
  simp only [List.cons.injEq, Char.reduceEq, false_and, if_false, if_true,
    targetHandler, hobj] at hok ⊢
  rw [W.bind_ok_iff] at hok
  obtain ⟨d, hd, hok⟩ := hok
  rw [W.lift_res] at hd
  have hd' : decodeByteString env v = .ok d := hd
  rw [hd, W.lift_ok_bind]
  cases d with
  | str t =>
    refine ⟨t, ?_⟩
    simp only []
    by_cases hs : startsWith t s%"/" = true
    · rw [if_pos hs]
      obtain ⟨u, hu⟩ := startsWith_iff.1 hs
      have hu : t = '/' :: u := hu.symm
      subst hu
      have hdrop : ('/' :: u).drop 1 = u := rfl
      rw [hdrop]
      obtain ⟨s1, s2⟩ := targetLoop_spec (env := env) (mgr := mgr) (mins := mins) (f := f) it []
        (split '/' u)
      have e0 : slashed [] = [] := rfl
      rw [e0] at s1 s2
      by_cases hp : PathOk env mgr f [] (split '/' u)
      · obtain ⟨r1, r2⟩ := s1 hp
        rw [W.bind_log_of_ok r1, findings_append, r2]
        simp only [if_true, List.nil_append]
        by_cases hc : h5contains (mkCtx env mgr mins f).file (mkCtx env mgr mins f).file.root
            ('/' :: u) = true
        · rw [if_pos hc, findings_record, ha]
          exact ⟨_, _, decode_text hd', rfl, .inl rfl, fun _ => ⟨u, rfl, hp, hc⟩, fun _ => rfl⟩
        · rw [if_neg hc, findings_record, ha]
          refine ⟨_, _, decode_text hd', rfl, .inr rfl, fun h => (by cases h), ?_⟩
          rintro ⟨u', _, _, h3⟩
          exact absurd h3 hc
      · obtain ⟨r1, c, r2⟩ := s2 hp
        rw [W.bind_log_of_ok r1, findings_append, r2]
        simp only [Bool.false_eq_true, if_false]
        refine ⟨.error, c, decode_text hd', by rw [ha]; rfl, .inr rfl, fun h => (by cases h), ?_⟩
        rintro ⟨u', h1, h2, _⟩
        injection h1 with _ h1
        subst h1
        exact absurd h2 hp
    · rw [if_neg hs, findings_record, ha]
      refine ⟨_, _, decode_text hd', rfl, .inr rfl, fun h => (by cases h), ?_⟩
      rintro ⟨u, rfl, _⟩
      exact absurd (startsWith_iff.2 ⟨u, rfl⟩) hs
  | _ => cases hok

/-! ## bundled rules: the path leads to an object -/

theorem nameOk_simple {env : Env} {mgr : Manager} (hb : Bundled mgr) {p : Str}
    (hsl : '/' ∉ p) (h : NameOk env mgr p) : SimpleName p := by
  have key : ∀ q : Str, (∃ c cs, q = c :: cs ∧ (Upper c ∨ Lower c ∨ c = '_')) →
      q ≠ [] ∧ ∀ r, q ++ r ≠ s%"." := by
    rintro q ⟨c, cs, rfl, hc⟩
    refine ⟨by simp, ?_⟩
    intro r hr
    injection hr with hr _
    subst hr
    revert hc
    unfold Upper Lower
    decide
  have strict : ∀ q : Str, StrictName q → ∃ c cs, q = c :: cs ∧ (Upper c ∨ Lower c ∨ c = '_') := by
    rintro q ⟨c, cs, rfl, hc, _⟩
    exact ⟨c, cs, rfl, .inr hc⟩
  have relaxed : ∀ q : Str, RelaxedName env.word q →
      ∃ c cs, q = c :: cs ∧ (Upper c ∨ Lower c ∨ c = '_') := by
    rintro q ⟨c, cs, rfl, hc, _⟩
    exact ⟨c, cs, rfl, hc⟩
  have both : ∀ P : Str → Prop, (∀ q, P q → ∃ c cs, q = c :: cs ∧ (Upper c ∨ Lower c ∨ c = '_')) →
      OrNewline P p → SimpleName p := by
    rintro P hP (hp | ⟨t, rfl, hp⟩)
    · obtain ⟨h1, h2⟩ := key p (hP p hp)
      exact ⟨h1, hsl, by simpa using h2 []⟩
    · obtain ⟨h1, h2⟩ := key t (hP t hp)
      exact ⟨by simp, hsl, h2 _⟩
  rw [NameOk, relaxedBy_bundled hb] at h
  rcases h with h | h
  · exact both _ strict h
  · exact both _ relaxed h

theorem intactKids_lookup {ks : Kids} (h : IntactKids ks) {l : Str} {o : Option Node}
    (hl : ks.toList.lookup l = some o) : ∃ m, o = some m ∧ Intact m := by
  match ks, h with
  | .nil, _ => simp [Kids.toList] at hl
  | .cons l' k n rest, h =>
    rw [IntactKids] at h
    rw [Kids.toList, List.lookup_cons] at hl
    split at hl
    · injection hl with hl
      exact ⟨n, hl.symm, h.1⟩
    · exact intactKids_lookup h.2 hl
  | .broken .., h => rw [IntactKids] at h; exact h.elim

theorem linkExists_iff {start : Node} (h : Intact start) (parts : List Str) :
    linkExists start parts = true ↔ ∃ m, Reaches start parts m := by
  induction parts generalizing start with
  | nil => exact ⟨fun _ => ⟨start, .here _⟩, fun _ => rfl⟩
  | cons c cs ih =>
    have grp : ∀ n a ks, start = .group n a ks →
        (linkExists start (c :: cs) = true ↔
          ∃ m, ks.toList.lookup c = some (some m) ∧ linkExists m cs = true) := by
      rintro n a ks rfl
      rw [Intact] at h
      cases cs with
      | nil =>
        rw [linkExists, Kids.find]
        cases hl : ks.toList.lookup c with
        | none => simp
        | some o =>
          obtain ⟨m, rfl, _⟩ := intactKids_lookup h hl
          simp [linkExists]
      | cons d ds =>
        rw [linkExists, Kids.find]
        cases hl : ks.toList.lookup c with
        | none => simp
        | some o =>
          obtain ⟨m, rfl, _⟩ := intactKids_lookup h hl
          simp
    cases start with
    | group n a ks =>
      rw [grp n a ks rfl]
      rw [Intact] at h
      constructor
      · rintro ⟨m, h1, h2⟩
        obtain ⟨m', hm', hi⟩ := intactKids_lookup h h1
        injection hm' with hm'
        subst hm'
        obtain ⟨k, hk⟩ := (ih hi).1 h2
        exact ⟨k, .step h1 hk⟩
      · rintro ⟨k, hk⟩
        cases hk with
        | @step _ _ _ _ m _ _ h1 h2 =>
          obtain ⟨m', hm', hi⟩ := intactKids_lookup h h1
          injection hm' with hm'
          subst hm'
          exact ⟨m, h1, (ih hi).2 ⟨k, h2⟩⟩
    | dataset n a d =>
      constructor
      · intro hh; cases cs <;> simp [linkExists] at hh
      · rintro ⟨k, hk⟩; cases hk
    | datatype n a =>
      constructor
      · intro hh; cases cs <;> simp [linkExists] at hh
      · rintro ⟨k, hk⟩; cases hk

theorem reaches_prefix {start : Node} {ps qs : List Str} {m : Node}
    (h : Reaches start (ps ++ qs) m) : ∃ k, Reaches start ps k := by
  induction ps generalizing start with
  | nil => exact ⟨start, .here _⟩
  | cons p ps ih =>
    cases h with
    | step h1 h2 =>
      obtain ⟨k, hk⟩ := ih h2
      exact ⟨k, .step h1 hk⟩

theorem contains_slashed {f : H5File} (hi : IntactKids f.kids) {parts : List Str}
    (hne : parts ≠ []) (hs : ∀ p ∈ parts, SimpleName p) :
    h5contains f f.root (slashed parts) = true ↔ ∃ m, Reaches f.root parts m := by
  have hroot : Intact f.root := by rw [H5File.root, Intact]; exact hi
  cases parts with
  | nil => exact absurd rfl hne
  | cons p ps =>
    have e : slashed (p :: ps) = '/' :: (p ++ slashed ps) := rfl
    have h1 : slashed (p :: ps) ≠ [] := by rw [e]; simp
    have h2 : startNode f f.root (slashed (p :: ps)) = f.root := by rw [startNode]; split <;> rfl
    have hdot : ¬ endsInDot (slashed (p :: ps)) = true := by
      rw [endsInDot_of (cs := p :: ps) ?_ fun c hc => (hs c hc).2.2]
      · simp
      · rw [split_slashed fun c hc => (hs c hc).2.1, List.filter_cons_of_neg (by simp),
          List.filter_eq_self]
        exact fun c hc => by simpa using (hs c hc).1
    rw [h5contains, if_neg h1, if_neg hdot, h2, pathParts_slashed hs, linkExists_iff hroot]

/-- C19 with the bundled naming rules: the finding on `target` is OK exactly if the value is an
absolute path whose components are valid names and lead, link by link from the root, to an
object of the file; otherwise it is ERROR. -/
theorem target_verdict_bundled {env : Env} {mgr : Manager} {mins : Dict (Str × Str) Int}
    {f : H5File} (hb : Bundled mgr) (h : (validateOpen env mgr mins f).res = .ok ()) {it : Item}
    (hit : it ∈ (catalog env f).log) {v : Val} (hobj : it.obj = .val v) {a : Str}
    (ha : it.addr = some a) (hn : it.name = s%"target") :
    ∃ t st c, TextOf env v t ∧
      attrFindings (validateOpen env mgr mins f).log it.oid =
        [⟨some a, s%"attribute value", st, c⟩] ∧
      (st = .ok ∨ st = .error) ∧
      (st = .ok ↔ ∃ parts m, t = slashed parts ∧ parts ≠ [] ∧
        (∀ p ∈ parts, '/' ∉ p ∧ (OrNewline StrictName p ∨ OrNewline (RelaxedName env.word) p)) ∧
        Reaches f.root parts m) := by
  obtain ⟨t, st, c, h1, h2, h3, h4⟩ := target_verdict h hit hobj ha hn
  refine ⟨t, st, c, h1, h2, h3, h4.trans ?_⟩
  have hi := catalog_intact (completed h).catalog
  constructor
  · rintro ⟨u, rfl, hpo, hc⟩
    have hall : ∀ p ∈ split '/' u, '/' ∉ p ∧ NameOk env mgr p := by
      intro p hp
      obtain ⟨pre, post, e⟩ := List.append_of_mem hp
      exact ⟨sep_notMem_split hp, (hpo pre p post e).1⟩
    have hsimple : ∀ p ∈ split '/' u, SimpleName p :=
      fun p hp => nameOk_simple hb (hall p hp).1 (hall p hp).2
    rw [← slashed_split u] at hc ⊢
    rw [contains_slashed hi (split_ne_nil _ _) hsimple] at hc
    obtain ⟨m, hm⟩ := hc
    refine ⟨split '/' u, m, rfl, split_ne_nil _ _, ?_, hm⟩
    intro p hp
    refine ⟨(hall p hp).1, ?_⟩
    have := (hall p hp).2
    rwa [NameOk, relaxedBy_bundled hb] at this
  · rintro ⟨parts, m, rfl, hne, hall, hm⟩
    cases parts with
    | nil => exact absurd rfl hne
    | cons p ps =>
      have hok : ∀ q ∈ p :: ps, NameOk env mgr q := by
        intro q hq
        rw [NameOk, relaxedBy_bundled hb]
        exact (hall q hq).2
      have hsimple : ∀ q ∈ p :: ps, SimpleName q :=
        fun q hq => nameOk_simple hb (hall q hq).1 (hok q hq)
      have hu : split '/' (p ++ slashed ps) = p :: ps := by
        have := split_slashed (parts := p :: ps) (fun q hq => (hall q hq).1)
        have e : slashed (p :: ps) = '/' :: (p ++ slashed ps) := rfl
        rw [e, split_cons_sep] at this
        injection this
      refine ⟨p ++ slashed ps, rfl, ?_, ?_⟩
      · rw [hu]
        intro pre q post e
        have hq : q ∈ p :: ps := by rw [e]; simp
        refine ⟨hok q hq, ?_⟩
        rw [List.nil_append]
        have hsub : ∀ r ∈ pre ++ [q], SimpleName r := by
          intro r hr
          refine hsimple r ?_
          rw [e]
          simp only [List.mem_append, List.mem_cons] at hr ⊢
          tauto
        rw [contains_slashed hi (by simp) hsub]
        refine reaches_prefix (qs := post) (m := m) ?_
        rw [List.append_assoc, List.singleton_append, ← e]
        exact hm
      · rw [contains_slashed hi (by simp) hsimple]
        exact ⟨m, hm⟩

/-! ## cases -/

/-- `/e` with an NXdata group using signal, axes and target in several ways. -/
def attrFile : H5File :=
  entryFile (.cons s%"d" .hard (.group s%"/e/d"
      [(s%"NX_class", .str s%"NXdata"), (s%"axes", .arrO [s%"x", s%"q", s%"."]),
       (s%"signal", .str s%"x")]
      (.cons s%"x" .hard (.dataset s%"/e/d/x" [(s%"signal", .int 1),
        (s%"target", .str s%"/e/d/x"), (s%"units", .str s%"mm")] (.ofVal (.int 1)))
      (.cons s%"y" .hard (.dataset s%"/e/d/y" [(s%"signal", .int 2),
        (s%"target", .str s%"/e/q")] (.ofVal (.int 1))) .nil))) .nil)

theorem attrFile_ok : (validateOpen sampleEnv sampleMgr [] attrFile).res = .ok () := by rfl

/-- All attribute findings of the example. -/
example : (catalog sampleEnv attrFile).log.map (fun it =>
    (it.addr, (attrFindings (validateOpen sampleEnv sampleMgr [] attrFile).log it.oid).map
      (fun fd => (fd.test, fd.status)))) =
    [(some s%"/", []), (some s%"/e", []),
     (some s%"/e@NX_class", [(s%"attribute value", .ok)]),
     (some s%"/e/d", []), (some s%"/e/d@NX_class", [(s%"attribute value", .ok)]),
     (some s%"/e/d@axes", [(s%"valid name @axes['x']", .ok), (s%"axes['x'] exists", .ok),
       (s%"valid name @axes['q']", .ok), (s%"axes['q'] exists", .error),
       (s%"valid name @axes['.']", .error), (s%"axes['.'] exists", .ok),
       (s%"attribute value", .todo)]),
     (some s%"/e/d@signal", [(s%"valid name @signal=x", .ok), (s%"attribute value", .ok)]),
     (some s%"/e/d/x", []), (some s%"/e/d/x@signal", [(s%"attribute value", .ok)]),
     (some s%"/e/d/x@target", [(s%"attribute value", .ok)]),
     (some s%"/e/d/x@units", [(s%"attribute value", .todo)]),
     (some s%"/e/d/y", []), (some s%"/e/d/y@signal", [(s%"attribute value", .note)]),
     (some s%"/e/d/y@target", [(s%"attribute value", .error)])] := by rfl

/-- The hypotheses of `signal_of_group` and `signal_of_group_simple` hold for `/e/d@signal`. -/
example : ∃ it ∈ (catalog sampleEnv attrFile).log, ∃ owner gn ga gk,
    it.obj = .val (.str s%"x") ∧ it.addr = some s%"/e/d@signal" ∧ it.name = s%"signal" ∧
    it.parent = some owner ∧ owner.obj = .node (.group gn ga gk) ∧ SimpleName s%"x" ∧
    s%"x" ∈ gk.toList.map (·.1) :=
  ⟨(catalog sampleEnv attrFile).log[6], List.getElem_mem _, _, _, _, _, rfl, rfl, rfl, rfl, rfl,
    by unfold SimpleName; decide, by decide⟩

/-- `h5contains_dot`: the group `/e` has a group `d`, and "d/." is in it; the group `/e/d` has a
field `x`, and "x/." is not in it, though "x" is. -/
example : h5contains attrFile attrFile.root s%"/e/d/." = true ∧
    h5contains attrFile attrFile.root s%"/e/d/x/." = false ∧
    h5contains attrFile attrFile.root s%"/e/d/./x" = true ∧
    h5contains attrFile attrFile.root s%"/e/d/x" = true := by decide

/-- The hypotheses of `signal_of_field` hold for `/e/d/x@signal`. -/
example : sampleEnv.isdigit s%"1" = true ∧ ∃ it ∈ (catalog sampleEnv attrFile).log, ∃ owner,
    it.obj = .val (.int 1) ∧ it.addr = some s%"/e/d/x@signal" ∧ it.name = s%"signal" ∧
    it.parent = some owner ∧ isHdf5Dataset owner.obj = true ∧ MarksOne sampleEnv (.int 1) :=
  ⟨rfl, (catalog sampleEnv attrFile).log[8], List.getElem_mem _, _, rfl, rfl, rfl, rfl, rfl,
    .inl rfl⟩

/-- The hypotheses of `axes_findings` hold for `/e/d@axes`. -/
example : ∃ it ∈ (catalog sampleEnv attrFile).log, ∃ owner,
    it.obj = .val (.arrO [s%"x", s%"q", s%"."]) ∧ it.addr = some s%"/e/d@axes" ∧
    it.name = s%"axes" ∧ it.parent = some owner ∧
    AxesOf sampleEnv (.arrO [s%"x", s%"q", s%"."]) [s%"x", s%"q", s%"."] :=
  ⟨(catalog sampleEnv attrFile).log[5], List.getElem_mem _, _, rfl, rfl, rfl, rfl,
    .inr (.inl ⟨by simp, rfl⟩)⟩

/-- The hypotheses of `target_verdict_bundled` hold for `/e/d/x@target`, whose path leads to an
object. -/
example : ∃ it ∈ (catalog sampleEnv attrFile).log,
    it.obj = .val (.str s%"/e/d/x") ∧ it.addr = some s%"/e/d/x@target" ∧
    it.name = s%"target" ∧ ∃ m, Reaches attrFile.root [s%"e", s%"d", s%"x"] m :=
  ⟨(catalog sampleEnv attrFile).log[9], List.getElem_mem _, rfl, rfl, rfl, _,
    .step rfl (.step rfl (.step rfl (.here _)))⟩

/-- `signal` on the root. -/
def rootSignalFile : H5File := { entryFile .nil with attrs := [(s%"signal", .str s%"e")] }

example : (validateOpen sampleEnv sampleMgr [] rootSignalFile).res = .ok () ∧
    ∃ it ∈ (catalog sampleEnv rootSignalFile).log, ∃ owner,
    it.obj = .val (.str s%"e") ∧ it.addr = some s%"/@signal" ∧ it.name = s%"signal" ∧
    it.parent = some owner ∧ isHdf5Dataset owner.obj = false ∧ isHdf5Group owner.obj = false :=
  ⟨by rfl, (catalog sampleEnv rootSignalFile).log[1], List.getElem_mem _, _, rfl, rfl, rfl, rfl,
    rfl, rfl⟩

/-- `axes` on a field stops the validation. -/
theorem axes_on_field_stops :
    (validateOpen sampleEnv sampleMgr []
      (entryFile (fieldIn s%"x" [(s%"axes", .str s%"x")] .nil))).res = .error .attributeError := by
  rfl

end Punx
