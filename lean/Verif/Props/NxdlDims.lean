import Verif.Props.NxdlParse5
import Mathlib.Data.List.Dedup

/-!
# C90: the dimensions of a field
-/

namespace Punx
open Spec

/-- the index written on a `dim` element -/
def indexOf (e : Xml) : Option Str := Dict.get? e.attrib s%"index"

theorem filter_of_nodup {l : List Xml} (hn : (l.map indexOf).Nodup) {e : Xml} (he : e ∈ l) :
    l.filter (fun x => indexOf x = indexOf e) = [e] := by
  induction l with
  | nil => cases he
  | cons x l ih =>
    rw [List.map_cons, List.nodup_cons] at hn
    rcases List.mem_cons.1 he with rfl | he
    · rw [List.filter_cons, if_pos (by simp)]
      congr 1
      rw [List.filter_eq_nil_iff]
      intro y hy
      simp only [decide_eq_true_eq]
      exact fun h => hn.1 (List.mem_map.2 ⟨y, hy, h⟩)
    · have hne : indexOf x ≠ indexOf e := fun h => hn.1 (List.mem_map.2 ⟨e, he, h.symm⟩)
      rw [List.filter_cons, if_neg (by simpa using hne)]
      exact ih hn.2 he

theorem dimsAt_of_nodup {kids : List Xml} (hn : ((elements s%"dim" kids).map indexOf).Nodup)
    {e : Xml} (he : e ∈ elements s%"dim" kids) : dimsAt kids (indexOf e) = [e] :=
  filter_of_nodup hn he

theorem mem_keys_dims {kids : List Xml} {k : Option Str} :
    dimsAt kids k ≠ [] ↔ k ∈ (elements s%"dim" kids).map indexOf := by
  unfold dimsAt
  rw [ne_eq, List.filter_eq_nil_iff]
  simp only [decide_eq_true_eq, not_forall, not_not, List.mem_map, exists_prop]
  rfl

/-- A list with the same elements and no repetition is as long exactly if nothing is
repeated. -/
theorem length_eq_iff_nodup {α : Type} [DecidableEq α] {l m : List α} (hl : l.Nodup)
    (h : ∀ k, k ∈ l ↔ k ∈ m) : l.length = m.length ↔ m.Nodup := by
  have hp : l.Perm m.dedup := by
    rw [List.perm_ext_iff_of_nodup hl (List.nodup_dedup m)]
    intro k
    rw [h k, List.mem_dedup]
  rw [hp.length_eq]
  constructor
  · intro hlen
    exact (List.dedup_sublist m).eq_of_length hlen ▸ List.nodup_dedup m
  · intro hm
    rw [hm.dedup]

/-- **C90.** The dimensions of a field that has been read: there are some exactly if the field
has one `dimensions` element; then the rank is the one written there, and all `dim` elements are
kept, each under its index and with all that is written on it, exactly if no index is written
twice. -/
theorem field_dimensions {c : Category} {x : Xml} {n : Str} {f : FieldSpec} {d d' : Defaults}
    (h : readField c x d = .ok ((n, f), d')) :
    (f.dims.isSome ↔ (elements s%"dimensions" x.kids).length = 1) ∧
    ∀ y s, y ∈ elements s%"dimensions" x.kids → f.dims = some s →
      s.rank = Dict.get? y.attrib s%"rank" ∧
      (s.dims.length = (elements s%"dim" y.kids).length ↔
        ((elements s%"dim" y.kids).map indexOf).Nodup) ∧
      (((elements s%"dim" y.kids).map indexOf).Nodup →
        ∀ e ∈ elements s%"dim" y.kids, ∃ r, Dict.get? s.dims (indexOf e) = some r ∧
          DescribesDim e r) := by
  obtain ⟨_, _, _, hs, hnone⟩ := readField_ok h
  constructor
  · constructor
    · intro ho
      obtain ⟨s, ho⟩ := Option.isSome_iff_exists.1 ho
      obtain ⟨y, hy, _⟩ := hs s ho
      rw [hy]
      rfl
    · intro hl
      obtain ⟨y, hy⟩ := List.length_eq_one_iff.1 hl
      cases ho : f.dims with
      | none => exact absurd hy (hnone ho y)
      | some s => rfl
  · intro y s hy ho
    obtain ⟨z, hz, hr, h1, h2, h3⟩ := hs s ho
    rw [hz, List.mem_singleton] at hy
    subst hy
    have hk : ∀ k, k ∈ Dict.keys s.dims ↔ k ∈ (elements s%"dim" y.kids).map indexOf :=
      fun k => (h2 k).trans mem_keys_dims
    refine ⟨hr, ?_, fun hn e he => ?_⟩
    · have := length_eq_iff_nodup h1 hk
      rw [List.length_map, Dict.keys, List.length_map] at this
      exact this
    · have hm : indexOf e ∈ Dict.keys s.dims := (hk _).2 (List.mem_map.2 ⟨e, he, rfl⟩)
      cases hg : Dict.get? s.dims (indexOf e) with
      | none => exact absurd hm (Dict.get?_eq_none.1 hg)
      | some r =>
        obtain ⟨e', he', hd⟩ := h3 _ _ hg
        rw [dimsAt_of_nodup hn he] at he'
        injection he' with he'
        subst he'
        exact ⟨r, rfl, hd⟩

/-- `<field name="n"><dimensions rank="r">…</dimensions></field>` -/
def fieldWithDims (r : Str) (dims : List (Dict Str Str)) : Xml :=
  .elem true s%"field" [(s%"name", s%"n")]
    [.elem true s%"dimensions" [(s%"rank", r)] (dims.map fun a => .elem true s%"dim" a [])]

/-- Two dimensions, read as they are written. -/
example : (((readField .baseClasses (fieldWithDims s%"dataRank"
      [[(s%"index", s%"1"), (s%"value", s%"nP")],
       [(s%"index", s%"2"), (s%"value", s%"nT"), (s%"ref", s%"time")]])).run
        shippedDefaults).toOption.bind fun r => r.1.2.dims) =
    some ⟨some s%"dataRank", [
      (some s%"1", ⟨some s%"1", some s%"nP", none, none, none⟩),
      (some s%"2", ⟨some s%"2", some s%"nT", some s%"time", none, none⟩)]⟩ := by
  decide +kernel

/-- With an index written twice, the last one is kept. -/
example : (((readField .baseClasses (fieldWithDims s%"2"
      [[(s%"index", s%"1"), (s%"value", s%"nP")], [(s%"index", s%"1"), (s%"value", s%"nT")]])).run
        shippedDefaults).toOption.bind fun r => r.1.2.dims) =
    some ⟨some s%"2", [(some s%"1", ⟨some s%"1", some s%"nT", none, none, none⟩)]⟩ := by
  decide +kernel

/-- **C90.** The schema of the set has to describe dimensions: otherwise a field with
dimensions cannot be read at all. -/
theorem dimensions_undeclared {c : Category} {x y : Xml} {d : Defaults} (hd : d.dimensions = false)
    (hy : elements s%"dimensions" x.kids = [y]) (n : Str) (f : FieldSpec) (d' : Defaults) :
    readField c x d ≠ .ok ((n, f), d') := by
  intro h
  unfold readField at h
  obtain ⟨name, d1, h1, h2⟩ := Reader.bind_ok.1 h
  obtain ⟨_, rfl⟩ := need_ok.1 h1
  obtain ⟨attrs, d2, h3, h4⟩ := Reader.bind_ok.1 h2
  obtain ⟨dims, d3, h5, _⟩ := Reader.bind_ok.1 h4
  rw [readDimensions_def, hy] at h5
  obtain ⟨_, d4, h6, _⟩ := Reader.bind_ok.1 h5
  obtain ⟨h7, rfl⟩ := needComponent_ok.1 h6
  have := readAttributes_dimensions h3
  rw [← this, h7] at hd
  cases hd
where
  readAttributes_dimensions {c : Category} {xs : List Xml} {acc r : Dict Str AttrSpec}
      {d d' : Defaults} (h : readAttributes c xs acc d = .ok (r, d')) :
      d'.dimensions = d.dimensions := by
    induction xs generalizing acc d with
    | nil =>
      rw [readAttributes, Reader.pure_ok] at h
      obtain ⟨_, rfl⟩ := h
      rfl
    | cons x xs ih =>
      rw [readAttributes] at h
      split at h
      · obtain ⟨name, d1, h1, h2⟩ := Reader.bind_ok.1 h
        obtain ⟨_, rfl⟩ := need_ok.1 h1
        obtain ⟨u, d2, h3, h4⟩ := Reader.bind_ok.1 h2
        split at h4
        · exact absurd h4 (by simp [Reader.raise])
        · rw [ih h4]
          unfold noteAttribute at h3
          cases c with
          | applications =>
            cases ho : d.attrOptional with
            | none => simp [ho] at h3
            | some v =>
              simp only [ho] at h3
              injection h3 with h3
              injection h3 with _ h3
              subst h3
              rfl
          | _ => injection h3 with h3; injection h3 with _ h3; rw [h3]
      · exact ih h

end Punx
