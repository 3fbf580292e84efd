import Verif.Spec.Schema
import Verif.Lemmas.Basic

/-!
# C52: name patterns of a schema
-/

namespace Punx
open Spec

/-! ## reading the declarations -/

theorem stripNs_spec (ref w : Str) : stripNs ref = w ↔ WithoutPrefix ref w := by
  have key : ∀ {ref w : Str}, WithoutPrefix ref w → stripNs ref = w := by
    rintro ref w ⟨hw, rfl | ⟨p, rfl⟩⟩
    · rw [stripNs, lastComp, split_noSep hw]
      rfl
    · rw [stripNs]
      exact lastComp_append p w hw
  constructor
  · rintro rfl
    suffices h : ∃ w, WithoutPrefix ref w by
      obtain ⟨w, hw⟩ := h
      rw [key hw]
      exact hw
    clear key
    induction ref with
    | nil => exact ⟨[], by simp, .inl rfl⟩
    | cons c cs ih =>
      obtain ⟨w, hw, he | ⟨p, he⟩⟩ := ih
      · by_cases hc : c = ':'
        · exact ⟨w, hw, .inr ⟨[], by simp [hc, he]⟩⟩
        · exact ⟨c :: w, by simp [hw, Ne.symm hc], .inl (by simp [he])⟩
      · exact ⟨w, hw, .inr ⟨c :: p, by simp [he]⟩⟩
  · exact key

/-- the lengths given by facets -/
def lengthsOf (fs : List Facet) : List Str :=
  fs.filterMap fun f => match f with
    | .maxLength v => v
    | _ => none

theorem readFacets_ok {int : Str → Option Int} : ∀ {fs : List Facet} {o o' : SchemaPattern},
    readFacets int fs o = .ok o' →
    o'.base = o.base ∧ o'.reList = o.reList ++ ownPatterns fs ∧
      o'.maxLength = (((lengthsOf fs).getLast?).bind int).getD o.maxLength ∧
      ∀ f ∈ fs, f ≠ .pattern none ∧ f ≠ .maxLength none ∧
        ∀ v, f = .maxLength (some v) → (int v).isSome
  | [], o, o', h => by
    injection h with h
    subst h
    simp [ownPatterns, lengthsOf]
  | .pattern none :: _, _, _, h => by cases h
  | .pattern (some p) :: fs, o, o', h => by
    obtain ⟨h1, h2, h3, h4⟩ := readFacets_ok (fs := fs) h
    refine ⟨h1, ?_, ?_, ?_⟩
    · rw [h2]
      simp [ownPatterns]
    · rw [h3]
      simp [lengthsOf]
    · intro f hf
      rcases List.mem_cons.1 hf with rfl | hf
      · simp
      · exact h4 f hf
  | .maxLength none :: _, _, _, h => by cases h
  | .maxLength (some n) :: fs, o, o', h => by
    rw [readFacets] at h
    cases hn : int n with
    | none => rw [hn] at h; cases h
    | some k =>
      rw [hn] at h
      obtain ⟨h1, h2, h3, h4⟩ := readFacets_ok (fs := fs) h
      refine ⟨h1, ?_, ?_, ?_⟩
      · rw [h2]
        simp [ownPatterns]
      · rw [h3]
        have hl : lengthsOf (.maxLength (some n) :: fs) = n :: lengthsOf fs := by
          simp [lengthsOf]
        rw [hl]
        cases hx : lengthsOf fs with
        | nil => simp [hn]
        | cons a l =>
          have hne : (n :: a :: l).getLast? = (a :: l).getLast? := by simp
          rw [hne]
          have hlast : ∃ w, (a :: l).getLast? = some w ∧ w ∈ lengthsOf fs :=
            ⟨(a :: l).getLast (by simp), List.getLast?_eq_getLast_of_ne_nil (by simp), by
              rw [hx]; exact List.getLast_mem (by simp)⟩
          obtain ⟨w, hw, hmem⟩ := hlast
          obtain ⟨f, hf, hfw⟩ := List.mem_filterMap.1 hmem
          have : f = .maxLength (some w) := by
            cases f <;> simp_all
          obtain ⟨i, hi⟩ := Option.isSome_iff_exists.1 ((h4 f hf).2.2 w this)
          rw [hw]
          simp [hi]
      · intro f hf
        rcases List.mem_cons.1 hf with rfl | hf
        · refine ⟨by simp, by simp, ?_⟩
          intro v hv
          injection hv with hv
          injection hv with hv
          subst hv
          simp [hn]
        · exact h4 f hf
  | .comment :: fs, o, o', h => by
    obtain ⟨h1, h2, h3, h4⟩ := readFacets_ok (fs := fs) h
    refine ⟨h1, by rw [h2]; simp [ownPatterns], by rw [h3]; simp [lengthsOf], ?_⟩
    intro f hf
    rcases List.mem_cons.1 hf with rfl | hf
    · simp
    · exact h4 f hf
  | .other :: fs, o, o', h => by
    obtain ⟨h1, h2, h3, h4⟩ := readFacets_ok (fs := fs) h
    refine ⟨h1, by rw [h2]; simp [ownPatterns], by rw [h3]; simp [lengthsOf], ?_⟩
    intro f hf
    rcases List.mem_cons.1 hf with rfl | hf
    · simp
    · exact h4 f hf

theorem readFacets_succeeds {int : Str → Option Int} : ∀ {fs : List Facet} {o : SchemaPattern},
    (∀ f ∈ fs, f ≠ .pattern none ∧ f ≠ .maxLength none ∧
      ∀ v, f = .maxLength (some v) → (int v).isSome) → ∃ o', readFacets int fs o = .ok o'
  | [], o, _ => ⟨o, rfl⟩
  | .pattern none :: _, _, h => absurd rfl (h _ (by simp)).1
  | .pattern (some p) :: fs, o, h => readFacets_succeeds (fs := fs) (fun f hf => h f (by simp [hf]))
  | .maxLength none :: _, _, h => absurd rfl (h _ (by simp)).2.1
  | .maxLength (some n) :: fs, o, h => by
    obtain ⟨i, hi⟩ := Option.isSome_iff_exists.1 ((h _ (by simp)).2.2 n rfl)
    rw [readFacets, hi]
    exact readFacets_succeeds (fs := fs) (fun f hf => h f (by simp [hf]))
  | .comment :: fs, o, h => readFacets_succeeds (fs := fs) (fun f hf => h f (by simp [hf]))
  | .other :: fs, o, h => readFacets_succeeds (fs := fs) (fun f hf => h f (by simp [hf]))

theorem readTypes_get {int : Str → Option Int} : ∀ {ts : List SimpleType}
    {db r : Dict Str SchemaPattern}, readTypes int ts db = .ok r → ∀ k,
    (∃ pre t post o, ts = pre ++ t :: post ∧ IsNameType t k ∧
        (∀ u ∈ post, u.name ≠ some k) ∧ readType int t = .ok o ∧ Dict.get? r k = some o) ∨
      ((∀ t ∈ ts, ¬ IsNameType t k) ∧ Dict.get? r k = Dict.get? db k)
  | [], db, r, h, k => by
    injection h with h
    subst h
    exact .inr ⟨by simp, rfl⟩
  | t :: ts, db, r, h, k => by
    rw [readTypes] at h
    cases hn : t.name with
    | none => rw [hn] at h; cases h
    | some key =>
      rw [hn] at h
      dsimp only at h
      split at h
      · rename_i hv
        cases ht : readType int t with
        | error e => rw [ht] at h; cases h
        | ok o =>
          rw [ht] at h
          rcases readTypes_get (ts := ts) h k with ⟨pre, u, post, o', h1, h2, h3, h4, h5⟩ | ⟨h1, h2⟩
          · exact .inl ⟨t :: pre, u, post, o', by simp [h1], h2, h3, h4, h5⟩
          · by_cases hk : key = k
            · subst hk
              refine .inl ⟨[], t, ts, o, rfl, ⟨hn, startsWith_iff.1 hv⟩, ?_, ht, ?_⟩
              · intro u hu hun
                exact h1 u hu ⟨hun, startsWith_iff.1 hv⟩
              · rw [h2, Dict.get?_set]
                simp
            · refine .inr ⟨?_, ?_⟩
              · intro u hu ⟨hun, hp⟩
                rcases List.mem_cons.1 hu with rfl | hu
                · rw [hn] at hun
                  injection hun with hun
                  exact hk hun
                · exact h1 u hu ⟨hun, hp⟩
              · rw [h2, Dict.get?_set, if_neg hk]
      · rename_i hv
        rcases readTypes_get (ts := ts) h k with ⟨pre, u, post, o', h1, h2, h3, h4, h5⟩ | ⟨h1, h2⟩
        · exact .inl ⟨t :: pre, u, post, o', by simp [h1], h2, h3, h4, h5⟩
        · refine .inr ⟨?_, h2⟩
          intro u hu ⟨hun, hp⟩
          rcases List.mem_cons.1 hu with rfl | hu
          · rw [hn] at hun
            injection hun with hun
            subst hun
            exact hv (startsWith_iff.2 hp)
          · exact h1 u hu ⟨hun, hp⟩

theorem readTypes_nodup {int : Str → Option Int} : ∀ {ts : List SimpleType}
    {db r : Dict Str SchemaPattern}, (Dict.keys db).Nodup → readTypes int ts db = .ok r →
    (Dict.keys r).Nodup
  | [], db, r, hd, h => by
    injection h with h
    subst h
    exact hd
  | t :: ts, db, r, hd, h => by
    rw [readTypes] at h
    split at h
    · cases h
    · split at h
      · split at h
        · cases h
        · exact readTypes_nodup (Dict.nodup_keys_set hd _ _) h
      · exact readTypes_nodup hd h

theorem readTypes_succeeds_iff {int : Str → Option Int} : ∀ {ts : List SimpleType}
    {db : Dict Str SchemaPattern},
    (∃ r, readTypes int ts db = .ok r) ↔ ReadableTypes int ts
  | [], db => ⟨fun _ => ⟨by simp, by simp⟩, fun _ => ⟨db, rfl⟩⟩
  | t :: ts, db => by
    rw [readTypes]
    have hcons : ReadableTypes int (t :: ts) ↔ (t.name.isSome ∧ (∀ k, IsNameType t k →
        ∃ r, t.restrictions = [r] ∧ r.base.isSome ∧
          ∀ f ∈ r.facets, f ≠ .pattern none ∧ f ≠ .maxLength none ∧
            ∀ v, f = .maxLength (some v) → (int v).isSome)) ∧ ReadableTypes int ts := by
      unfold ReadableTypes
      simp only [List.forall_mem_cons]
      tauto
    rw [hcons]
    cases hn : t.name with
    | none => simp
    | some key =>
      dsimp only
      split
      · rename_i hv
        have hv' := startsWith_iff.1 hv
        cases hr : readType int t with
        | error e =>
          constructor
          · rintro ⟨r, h⟩
            cases h
          · rintro ⟨⟨_, h⟩, _⟩
            obtain ⟨r, h1, h2, h3⟩ := h key ⟨hn, hv'⟩
            obtain ⟨b, hb⟩ := Option.isSome_iff_exists.1 h2
            obtain ⟨o, ho⟩ := readFacets_succeeds (o := ⟨stripNs b, [], -1⟩) h3
            rw [readType, h1] at hr
            dsimp only at hr
            rw [hb] at hr
            dsimp only at hr
            rw [ho] at hr
            cases hr
        | ok o =>
          dsimp only
          rw [readTypes_succeeds_iff]
          constructor
          · intro h
            refine ⟨⟨rfl, fun k hk => ?_⟩, h⟩
            rw [readType] at hr
            split at hr
            · rename_i r hrs
              cases hb : r.base with
              | none => rw [hb] at hr; cases hr
              | some b =>
                rw [hb] at hr
                exact ⟨r, hrs, by simp [hb], (readFacets_ok hr).2.2.2⟩
            · cases hr
          · exact fun h => h.2
      · rename_i hv
        rw [readTypes_succeeds_iff]
        constructor
        · intro h
          refine ⟨⟨rfl, fun k hk => ?_⟩, h⟩
          obtain ⟨h1, h2⟩ := hk
          rw [hn] at h1
          injection h1 with h1
          subst h1
          exact absurd (startsWith_iff.2 h2) hv
        · exact fun h => h.2

/-! ## inheritance -/

theorem inheritOne_other {db : Dict Str SchemaPattern} {k k' : Str} (h : k' ≠ k) :
    Dict.get? (inheritOne db k) k' = Dict.get? db k' := by
  unfold inheritOne
  split
  · rfl
  · split
    · split
      · rfl
      · rw [Dict.get?_set, if_neg (Ne.symm h)]
    · rfl

theorem inherit_foldl_other : ∀ {l : List Str} {db : Dict Str SchemaPattern} {k : Str}, k ∉ l →
    Dict.get? (l.foldl inheritOne db) k = Dict.get? db k
  | [], _, _, _ => rfl
  | a :: l, db, k, h => by
    rw [List.foldl_cons, inherit_foldl_other (fun hc => h (by simp [hc])),
      inheritOne_other (fun hc => h (by simp [hc]))]

theorem inheritOne_self {db : Dict Str SchemaPattern} {k : Str} {v : SchemaPattern}
    (hv : Dict.get? db k = some v) :
    Dict.get? (inheritOne db k) k = some
      (if v.base = s%"token" then v else
        match Dict.get? db v.base with
        | none => v
        | some b => ⟨b.base, v.reList ++ b.reList, b.maxLength⟩) := by
  unfold inheritOne
  rw [hv]
  dsimp only
  by_cases hb : v.base = s%"token"
  · rw [if_neg (by simpa using hb), if_pos hb, hv]
  · rw [if_pos hb, if_neg hb]
    cases hg : Dict.get? db v.base with
    | none => exact hv
    | some b =>
      dsimp only
      rw [Dict.get?_set, if_pos rfl]

theorem inheritOne_keys (db : Dict Str SchemaPattern) (k : Str) :
    Dict.keys (inheritOne db k) = Dict.keys db := by
  unfold inheritOne
  split
  · rfl
  · rename_i v hv
    split
    · split
      · rfl
      · rw [Dict.keys_set, if_pos]
        by_contra hc
        rw [Dict.get?_eq_none.2 hc] at hv
        cases hv
    · rfl

theorem inherit_foldl_keys : ∀ (l : List Str) (db : Dict Str SchemaPattern),
    Dict.keys (l.foldl inheritOne db) = Dict.keys db
  | [], _ => rfl
  | a :: l, db => by rw [List.foldl_cons, inherit_foldl_keys l, inheritOne_keys]

theorem inherit_foldl_some {l : List Str} {db : Dict Str SchemaPattern} {k : Str}
    (h : k ∈ Dict.keys db) : ∃ b, Dict.get? (l.foldl inheritOne db) k = some b := by
  cases hg : Dict.get? (l.foldl inheritOne db) k with
  | some b => exact ⟨b, rfl⟩
  | none =>
    have := Dict.get?_eq_none.1 hg
    rw [inherit_foldl_keys] at this
    exact absurd h this

theorem has_split {l : List Str} {k : Str} (h : k ∈ l) : ∃ pre post, l = pre ++ k :: post :=
  List.append_of_mem h

theorem prefix_unique {k : Str} : ∀ {x pre q post : List Str}, k ∉ x → k ∉ pre →
    pre ++ k :: post = x ++ k :: q → x = pre
  | [], [], _, _, _, _, _ => rfl
  | [], a :: pre, _, _, _, h2, h => by
    simp at h
    exact absurd (by simp [h.1]) h2
  | a :: x, [], _, _, h1, _, h => by
    simp at h
    exact absurd (by simp [h.1]) h1
  | a :: x, b :: pre, q, post, h1, h2, h => by
    simp only [List.cons_append, List.cons.injEq] at h
    rw [prefix_unique (x := x) (pre := pre) (fun hc => h1 (by simp [hc]))
      (fun hc => h2 (by simp [hc])) h.2, h.1]

theorem standsBefore_iff {pre post : List Str} {b k : Str} (hn : (pre ++ k :: post).Nodup) :
    StandsBefore (pre ++ k :: post) b k ↔ b ∈ pre := by
  constructor
  · rintro ⟨p, m, q, h⟩
    have h1 : k ∉ p ++ b :: m := by
      intro hc
      rw [h] at hn
      exact (List.nodup_append.1 hn).2.2 k hc k (by simp) rfl
    have h2 : k ∉ pre := fun hc => (List.nodup_append.1 hn).2.2 k hc k (by simp) rfl
    rw [← prefix_unique h1 h2 h]
    simp
  · intro hb
    obtain ⟨p, m, rfl⟩ := List.append_of_mem hb
    exact ⟨p, m, post, rfl⟩

/-- C52 (general): a type that restricts no other type of the schema stays as declared;
otherwise it gets its own patterns, then those of the restricted type, and the base and
length of that: as they are after inheritance if that type was declared before, as they
were declared if not. -/
theorem inherit_general {db : Dict Str SchemaPattern} (hn : (Dict.keys db).Nodup) {k : Str}
    {v : SchemaPattern} (hv : Dict.get? db k = some v) :
    (¬ Restricts db k v.base → Dict.get? (inheritAll db) k = some v) ∧
    (Restricts db k v.base → StandsBefore (Dict.keys db) v.base k →
      ∃ b, Dict.get? (inheritAll db) v.base = some b ∧
        Dict.get? (inheritAll db) k = some ⟨b.base, v.reList ++ b.reList, b.maxLength⟩) ∧
    (Restricts db k v.base → ¬ StandsBefore (Dict.keys db) v.base k →
      ∃ b, Dict.get? db v.base = some b ∧
        Dict.get? (inheritAll db) k = some ⟨b.base, v.reList ++ b.reList, b.maxLength⟩) := by
  have hk : k ∈ Dict.keys db := by
    by_contra hc
    rw [Dict.get?_eq_none.2 hc] at hv
    cases hv
  obtain ⟨pre, post, hs⟩ := has_split hk
  rw [hs] at hn
  obtain ⟨n1, n2, n3⟩ := List.nodup_append.1 hn
  have hkpost : k ∉ post := (List.nodup_cons.1 n2).1
  have hkpre : k ∉ pre := fun hc => n3 k hc k (by simp) rfl
  have hpre : Dict.get? (pre.foldl inheritOne db) k = some v := by
    rw [inherit_foldl_other hkpre, hv]
  have hall : inheritAll db = post.foldl inheritOne (inheritOne (pre.foldl inheritOne db) k) := by
    rw [inheritAll, hs, List.foldl_append, List.foldl_cons]
  have hself : Dict.get? (inheritAll db) k = some
      (if v.base = s%"token" then v else
        match Dict.get? (pre.foldl inheritOne db) v.base with
        | none => v
        | some b => ⟨b.base, v.reList ++ b.reList, b.maxLength⟩) := by
    rw [hall, inherit_foldl_other hkpost, inheritOne_self hpre]
  refine ⟨?_, ?_, ?_⟩
  · intro hr
    rw [hself]
    by_cases hb : v.base = s%"token"
    · rw [if_pos hb]
    · have : v.base ∉ Dict.keys db := fun hc => hr ⟨v, hv, rfl, hb, hc⟩
      have hg : Dict.get? (pre.foldl inheritOne db) v.base = none := by
        rw [inherit_foldl_other, Dict.get?_eq_none.2 this]
        intro hc
        exact this (by rw [hs]; simp [hc])
      rw [if_neg hb, hg]
  · rintro ⟨v', hv', _, hb, hbk⟩ hbefore
    rw [hs] at hbefore
    have hin := (standsBefore_iff hn).1 hbefore
    have hfin : Dict.get? (inheritAll db) v.base
        = Dict.get? (pre.foldl inheritOne db) v.base := by
      rw [inheritAll, hs, List.foldl_append, inherit_foldl_other]
      exact fun hc => n3 _ hin _ hc rfl
    obtain ⟨b, hbb⟩ := inherit_foldl_some (l := pre) (db := db) hbk
    refine ⟨b, by rw [hfin, hbb], ?_⟩
    rw [hself, if_neg hb, hbb]
  · rintro ⟨v', hv', _, hb, hbk⟩ hbefore
    rw [hs] at hbefore
    have hin : v.base ∉ pre := fun hc => hbefore ((standsBefore_iff hn).2 hc)
    obtain ⟨b, hbb⟩ := inherit_foldl_some (l := []) (db := db) hbk
    refine ⟨b, hbb, ?_⟩
    rw [hself, if_neg hb, inherit_foldl_other hin]
    rw [List.foldl_nil] at hbb
    rw [hbb]

/-- what a declaration amounts to when it is read -/
theorem readTypes_declares {int : Str → Option Int} {ts : List SimpleType}
    {db : Dict Str SchemaPattern} (h : readTypes int ts [] = .ok db) (k : Str)
    (v : SchemaPattern) :
    Dict.get? db k = some v ↔ s%"valid" <+: k ∧ ∃ n, DeclaresType ts k v.base v.reList n ∧
      v.maxLength = (n.bind int).getD (-1) := by
  have key : ∀ v, Dict.get? db k = some v → s%"valid" <+: k ∧
      ∃ n, DeclaresType ts k v.base v.reList n ∧ v.maxLength = (n.bind int).getD (-1) := by
    intro v hv
    rcases readTypes_get h k with ⟨pre, t, post, o, h1, h2, h3, h4, h5⟩ | ⟨_, h2⟩
    · rw [hv] at h5
      injection h5 with h5
      subst h5
      refine ⟨h2.2, ?_⟩
      rw [readType] at h4
      split at h4
      · rename_i r hr
        cases hb : r.base with
        | none => rw [hb] at h4; cases h4
        | some b =>
          rw [hb] at h4
          obtain ⟨f1, f2, f3, -⟩ := readFacets_ok h4
          refine ⟨_, ⟨pre, t, post, r, b, h1, h2.1, h3, hr, hb, ?_, by simpa using f2, rfl⟩, f3⟩
          exact (stripNs_spec _ _).1 f1.symm
      · cases h4
    · rw [hv] at h2
      cases h2
  constructor
  · exact key v
  · rintro ⟨hp, n, hd, hm⟩
    cases hg : Dict.get? db k with
    | none =>
      rcases readTypes_get h k with ⟨_, _, _, _, _, _, _, _, h5⟩ | ⟨h1, _⟩
      · rw [hg] at h5
        cases h5
      · obtain ⟨pre, t, post, r, b, rfl, hn, _⟩ := hd
        exact absurd ⟨hn, hp⟩ (h1 t (by simp))
    | some w =>
      obtain ⟨_, n', hd', hm'⟩ := key w hg
      obtain ⟨e1, e2, e3⟩ := declares_unique hd hd'
      subst e3
      cases v
      cases w
      simp_all
where
  declares_unique {ts : List SimpleType} {k b b' : Str} {own own' : List Str}
      {n n' : Option Str} (h : DeclaresType ts k b own n) (h' : DeclaresType ts k b' own' n') :
      b = b' ∧ own = own' ∧ n = n' := by
    obtain ⟨pre, t, post, r, c, rfl, hn, hp, hr, hc, hw, rfl, rfl⟩ := h
    obtain ⟨pre', t', post', r', c', hts, hn', hp', hr', hc', hw', rfl, rfl⟩ := h'
    have ht : t = t' := by
      rcases List.append_eq_append_iff.1 hts with ⟨l, h1, h2⟩ | ⟨l, h1, h2⟩
      · cases l with
        | nil => simp at h2; exact h2.1
        | cons a l =>
          simp at h2
          exact absurd hn' (hp t' (by rw [h2.2]; simp))
      · cases l with
        | nil => simp at h2; exact h2.1.symm
        | cons a l =>
          simp at h2
          exact absurd hn (hp' t (by rw [h2.2]; simp))
    subst ht
    rw [hr] at hr'
    injection hr' with hr'
    subst hr'
    rw [hc] at hc'
    injection hc' with hc'
    subst hc'
    exact ⟨((stripNs_spec _ _).2 hw).symm.trans ((stripNs_spec _ _).2 hw'), rfl, rfl⟩

/-- C52: the patterns of a schema are read exactly when the schema is well formed. -/
theorem patterns_read_iff (int : Str → Option Int) (ts : List SimpleType) :
    (∃ db, parsePatterns int ts = .ok db) ↔ ReadableTypes int ts := by
  rw [← readTypes_succeeds_iff (db := [])]
  unfold parsePatterns
  constructor
  · rintro ⟨db, h⟩
    split at h
    · cases h
    · exact ⟨_, by assumption⟩
  · rintro ⟨db, h⟩
    exact ⟨inheritAll db, by rw [h]⟩

theorem parsePatterns_ok {int : Str → Option Int} {ts : List SimpleType}
    {db : Dict Str SchemaPattern} (h : parsePatterns int ts = .ok db) :
    ∃ db₀, readTypes int ts [] = .ok db₀ ∧ db = inheritAll db₀ := by
  unfold parsePatterns at h
  split at h
  · cases h
  · injection h with h
    exact ⟨_, by assumption, h.symm⟩

/-- C52: a name type has patterns exactly when the schema has a simple type so called. -/
theorem patterns_keys {int : Str → Option Int} {ts : List SimpleType}
    {db : Dict Str SchemaPattern} (h : parsePatterns int ts = .ok db) (k : Str) :
    k ∈ Dict.keys db ↔ ∃ t ∈ ts, IsNameType t k := by
  obtain ⟨db₀, h0, rfl⟩ := parsePatterns_ok h
  rw [inheritAll, inherit_foldl_keys]
  rcases readTypes_get h0 k with ⟨pre, t, post, o, h1, h2, _, _, h5⟩ | ⟨h1, h2⟩
  · constructor
    · intro _
      exact ⟨t, by simp [h1], h2⟩
    · intro _
      by_contra hc
      rw [Dict.get?_eq_none.2 hc] at h5
      cases h5
  · constructor
    · intro hk
      exact absurd hk (Dict.get?_eq_none.1 (by rw [h2]; rfl))
    · rintro ⟨t, ht, hk⟩
      exact absurd hk (h1 t ht)

theorem declared_iff {int : Str → Option Int} {ts : List SimpleType}
    {db₀ : Dict Str SchemaPattern} (h0 : readTypes int ts [] = .ok db₀) (k : Str) :
    k ∈ Dict.keys db₀ ↔ ∃ t ∈ ts, IsNameType t k := by
  have := patterns_keys (int := int) (ts := ts) (db := inheritAll db₀)
    (by rw [parsePatterns, h0]) k
  rwa [inheritAll, inherit_foldl_keys] at this

/-- C52: a type that restricts no name type has its own patterns only. -/
theorem patterns_ground {int : Str → Option Int} {ts : List SimpleType}
    {db : Dict Str SchemaPattern} (h : parsePatterns int ts = .ok db) {k base : Str}
    {own : List Str} {n : Option Str} (hk : s%"valid" <+: k) (hd : DeclaresType ts k base own n)
    (hb : ∀ t ∈ ts, ¬ IsNameType t base) :
    Dict.get? db k = some ⟨base, own, (n.bind int).getD (-1)⟩ := by
  obtain ⟨db₀, h0, rfl⟩ := parsePatterns_ok h
  have hv : Dict.get? db₀ k = some ⟨base, own, (n.bind int).getD (-1)⟩ :=
    (readTypes_declares h0 k _).2 ⟨hk, n, hd, rfl⟩
  have hnd : (Dict.keys db₀).Nodup := readTypes_nodup (by simp [Dict.keys]) h0
  refine (inherit_general hnd hv).1 ?_
  rintro ⟨v, _, _, _, hin⟩
  obtain ⟨t, ht, hkt⟩ := (declared_iff h0 _).1 hin
  exact hb t ht hkt

/-- C52: a type restricting a name type that itself restricts none gets its own
patterns followed by those of the restricted type, whatever the order of the two
declarations; its base and its length become those of the restricted type. -/
theorem patterns_inherited {int : Str → Option Int} {ts : List SimpleType}
    {db : Dict Str SchemaPattern} (h : parsePatterns int ts = .ok db) {k base base₂ : Str}
    {own own₂ : List Str} {n n₂ : Option Str} (hk : s%"valid" <+: k)
    (hd : DeclaresType ts k base own n) (hb : s%"valid" <+: base)
    (hd₂ : DeclaresType ts base base₂ own₂ n₂) (hb₂ : ∀ t ∈ ts, ¬ IsNameType t base₂) :
    Dict.get? db k = some ⟨base₂, own ++ own₂, (n₂.bind int).getD (-1)⟩ := by
  have hground := patterns_ground h hb hd₂ hb₂
  obtain ⟨db₀, h0, rfl⟩ := parsePatterns_ok h
  have hv : Dict.get? db₀ k = some ⟨base, own, (n.bind int).getD (-1)⟩ :=
    (readTypes_declares h0 k _).2 ⟨hk, n, hd, rfl⟩
  have hv₂ : Dict.get? db₀ base = some ⟨base₂, own₂, (n₂.bind int).getD (-1)⟩ :=
    (readTypes_declares h0 base _).2 ⟨hb, n₂, hd₂, rfl⟩
  have hnd : (Dict.keys db₀).Nodup := readTypes_nodup (by simp [Dict.keys]) h0
  have hr : Restricts db₀ k base := by
    refine ⟨_, hv, rfl, ?_, ?_⟩
    · rintro rfl
      revert hb
      decide
    · by_contra hc
      rw [Dict.get?_eq_none.2 hc] at hv₂
      cases hv₂
  obtain ⟨-, g2, g3⟩ := inherit_general hnd hv
  by_cases hs : StandsBefore (Dict.keys db₀) base k
  · obtain ⟨b, e1, e2⟩ := g2 hr hs
    rw [hground] at e1
    injection e1 with e1
    subst e1
    exact e2
  · obtain ⟨b, e1, e2⟩ := g3 hr hs
    rw [hv₂] at e1
    injection e1 with e1
    subst e1
    exact e2

/-- C52: if every type stands after the one it restricts, every type gets all patterns
along its chain of restrictions, its own first. -/
theorem inherit_chain {db : Dict Str SchemaPattern} (hn : (Dict.keys db).Nodup)
    (hord : ∀ k b, Restricts db k b → StandsBefore (Dict.keys db) b k) {k : Str}
    {l : List Str} {b : Str} {m : Int} (h : Chain db k l b m) :
    Dict.get? (inheritAll db) k = some ⟨b, l, m⟩ := by
  induction h with
  | @ground k v hv hg =>
    refine (inherit_general hn hv).1 ?_
    rintro ⟨v', hv', hb', ht, hin⟩
    rcases hg with hg | hg
    · exact ht hg
    · exact hg hin
  | @step k v l b m hv hne hc ih =>
    have hin : v.base ∈ Dict.keys db := by
      cases hc with
      | ground h _ =>
        by_contra hc
        rw [Dict.get?_eq_none.2 hc] at h
        cases h
      | step h _ _ =>
        by_contra hc
        rw [Dict.get?_eq_none.2 hc] at h
        cases h
    have hr : Restricts db k v.base := ⟨v, hv, rfl, hne, hin⟩
    obtain ⟨w, e1, e2⟩ := (inherit_general hn hv).2.1 hr (hord _ _ hr)
    rw [ih] at e1
    injection e1 with e1
    subst e1
    exact e2

/-- with that order every type has such a chain -/
theorem chain_exists {db : Dict Str SchemaPattern} (hn : (Dict.keys db).Nodup)
    (hord : ∀ k b, Restricts db k b → StandsBefore (Dict.keys db) b k) :
    ∀ k ∈ Dict.keys db, ∃ l b m, Chain db k l b m := by
  suffices H : ∀ n pre k post, pre.length = n → Dict.keys db = pre ++ k :: post →
      ∃ l b m, Chain db k l b m by
    intro k hk
    obtain ⟨pre, post, hs⟩ := List.append_of_mem hk
    exact H _ pre k post rfl hs
  intro n
  induction n using Nat.strong_induction_on with
  | _ n ih =>
    intro pre k post hlen hs
    obtain ⟨v, hv⟩ := inherit_foldl_some (l := []) (db := db) (k := k) (by simp [hs])
    rw [List.foldl_nil] at hv
    by_cases hg : v.base = s%"token" ∨ v.base ∉ Dict.keys db
    · exact ⟨_, _, _, .ground hv hg⟩
    · have hne : v.base ≠ s%"token" := fun h => hg (.inl h)
      have hin : v.base ∈ Dict.keys db := by
        by_contra h
        exact hg (.inr h)
      have hb := hord k v.base ⟨v, hv, rfl, hne, hin⟩
      have hb' : v.base ∈ pre := by
        rw [hs] at hb hn
        exact (standsBefore_iff hn).1 hb
      obtain ⟨p, q, rfl⟩ := List.append_of_mem hb'
      obtain ⟨l, b, m, hc⟩ := ih p.length (by rw [← hlen]; simp) p v.base (q ++ k :: post) rfl
        (by simp [hs])
      exact ⟨_, _, _, .step hv hne hc⟩

/-! ## the schema's own name types, and what goes wrong with other orders -/

namespace SchemaExample

def int : Str → Option Int := fun s => if s = s%"63" then some 63 else none

def typ (name base : String) (ps : List String) : SimpleType :=
  ⟨some name.toList, [⟨some base.toList, .comment :: ps.map fun p => .pattern (some p.toList)⟩]⟩

/-- as in `nxdl.xsd`, with a length for the item name -/
def item : SimpleType :=
  ⟨some s%"validItemName", [⟨some s%"xs:token",
    [.pattern (some s%"[A-Za-z_]"), .maxLength (some s%"63"), .other]⟩]⟩
def nxclass : SimpleType := typ "validNXClassName" "nx:validItemName" ["NX.+"]
def target : SimpleType := typ "validTargetName" "nx:validNXClassName" ["/x"]

example : parsePatterns int [item, nxclass, target] = .ok
    [(s%"validItemName", ⟨s%"token", [s%"[A-Za-z_]"], 63⟩),
     (s%"validNXClassName", ⟨s%"token", [s%"NX.+", s%"[A-Za-z_]"], 63⟩),
     (s%"validTargetName", ⟨s%"token", [s%"/x", s%"NX.+", s%"[A-Za-z_]"], 63⟩)] := by
  decide +kernel

example : ReadableTypes int [nxclass, item] := by
  rw [← patterns_read_iff]
  exact ⟨[(s%"validNXClassName", ⟨s%"token", [s%"NX.+", s%"[A-Za-z_]"], 63⟩),
    (s%"validItemName", ⟨s%"token", [s%"[A-Za-z_]"], 63⟩)], by decide +kernel⟩

example : DeclaresType [nxclass, item] s%"validNXClassName" s%"validItemName" [s%"NX.+"] none :=
  ⟨[], nxclass, [item], ⟨some s%"nx:validItemName", [.comment, .pattern (some s%"NX.+")]⟩,
    s%"nx:validItemName", rfl, rfl, by decide, rfl, rfl, ⟨by decide, .inr ⟨s%"nx", rfl⟩⟩,
    rfl, rfl⟩

end SchemaExample

open SchemaExample in
/-- C52, what does not hold: with three types in a chain the patterns found depend on
the order of the declarations. -/
theorem patterns_order_matters :
    ∃ ts ts' : List SimpleType, ts.Perm ts' ∧ ReadableTypes int ts ∧
      ∀ db db', parsePatterns int ts = .ok db → parsePatterns int ts' = .ok db' →
        (Dict.get? db s%"validTargetName").map (·.reList)
            = some [s%"/x", s%"NX.+", s%"[A-Za-z_]"] ∧
        (Dict.get? db' s%"validTargetName").map (·.reList) = some [s%"/x", s%"NX.+"] := by
  refine ⟨[item, nxclass, target], [target, item, nxclass], ?_, ?_, ?_⟩
  · exact (List.perm_append_comm (l₁ := [item, nxclass]) (l₂ := [target]))
  · rw [← patterns_read_iff]
    exact ⟨[(s%"validItemName", ⟨s%"token", [s%"[A-Za-z_]"], 63⟩),
     (s%"validNXClassName", ⟨s%"token", [s%"NX.+", s%"[A-Za-z_]"], 63⟩),
     (s%"validTargetName", ⟨s%"token", [s%"/x", s%"NX.+", s%"[A-Za-z_]"], 63⟩)],
      by decide +kernel⟩
  · intro db db' h h'
    have e : parsePatterns int [item, nxclass, target] = .ok
        [(s%"validItemName", ⟨s%"token", [s%"[A-Za-z_]"], 63⟩),
         (s%"validNXClassName", ⟨s%"token", [s%"NX.+", s%"[A-Za-z_]"], 63⟩),
         (s%"validTargetName", ⟨s%"token", [s%"/x", s%"NX.+", s%"[A-Za-z_]"], 63⟩)] := by
      decide +kernel
    have e' : parsePatterns int [target, item, nxclass] = .ok
        [(s%"validTargetName", ⟨s%"validItemName", [s%"/x", s%"NX.+"], -1⟩),
         (s%"validItemName", ⟨s%"token", [s%"[A-Za-z_]"], 63⟩),
         (s%"validNXClassName", ⟨s%"token", [s%"NX.+", s%"[A-Za-z_]"], 63⟩)] := by
      decide +kernel
    rw [e] at h
    rw [e'] at h'
    injection h with h
    injection h' with h'
    subst h
    subst h'
    exact ⟨rfl, rfl⟩

/-- C52, what does not hold: the length given by a type that restricts a name type is
lost, whatever it is. -/
theorem patterns_length_lost {int : Str → Option Int} {ts : List SimpleType}
    {db : Dict Str SchemaPattern} (h : parsePatterns int ts = .ok db) {k base base₂ : Str}
    {own own₂ : List Str} {n : Option Str} (hk : s%"valid" <+: k)
    (hd : DeclaresType ts k base own n) (hb : s%"valid" <+: base)
    (hd₂ : DeclaresType ts base base₂ own₂ none) (hb₂ : ∀ t ∈ ts, ¬ IsNameType t base₂) :
    (Dict.get? db k).map (·.maxLength) = some (-1) := by
  rw [patterns_inherited h hk hd hb hd₂ hb₂]
  rfl

end Punx
