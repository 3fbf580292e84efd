import Verif.Props.Json4

/-!
# C128: the text is plain; the info file of a set
-/

namespace Punx
open Spec
namespace JVal

theorem plain_hexDigit {n : Nat} (h : n < 16) : Plain (hexDigit n) := by
  have : ∀ i : Fin 16, hexDigit i.1 = '\n' ∨ (32 ≤ (hexDigit i.1).toNat ∧ (hexDigit i.1).toNat ≤ 126) := by
    decide
  exact this ⟨n, h⟩

theorem plain_uEscape {n : Nat} {c : Char} (h : c ∈ uEscape n) : Plain c := by
  simp only [uEscape, List.mem_cons, List.not_mem_nil, or_false] at h
  rcases h with rfl | rfl | rfl | rfl | rfl | rfl
  · right; decide
  · right; decide
  all_goals exact plain_hexDigit (by omega)

theorem plain_escape {c x : Char} (h : x ∈ escape c) : Plain x := by
  have two : ∀ a : Char, Plain a → x ∈ ['\\', a] → Plain x := by
    intro a ha hx
    simp only [List.mem_cons, List.not_mem_nil, or_false] at hx
    rcases hx with rfl | rfl
    · right; decide
    · exact ha
  unfold escape at h
  split_ifs at h with h1 h2 h3 h4 h5 h6 h7 h8 h9
  iterate 7 (· refine two _ ?_ h; right; decide)
  · simp only [List.mem_cons, List.not_mem_nil, or_false] at h
    subst h; exact .inr h8
  · exact plain_uEscape h
  · rcases List.mem_append.1 h with h | h <;> exact plain_uEscape h

theorem plain_quote {s : Str} {c : Char} (h : c ∈ quote s) : Plain c := by
  simp only [quote, List.cons_append, List.mem_cons, List.mem_append, List.mem_flatMap,
    List.not_mem_nil, or_false] at h
  rcases h with rfl | ⟨x, -, h⟩ | rfl
  · right; decide
  · exact plain_escape h
  · right; decide

theorem plain_newLine {l : Nat} {c : Char} (h : c ∈ newLine l) : Plain c := by
  simp only [newLine, List.mem_cons, List.mem_replicate] at h
  rcases h with rfl | ⟨-, rfl⟩
  · exact .inl rfl
  · right; decide

theorem plain_join {sep : Str} (hs : ∀ c ∈ sep, Plain c) : ∀ {ts : List Str},
    (∀ t ∈ ts, ∀ c ∈ t, Plain c) → ∀ c ∈ join sep ts, Plain c
  | [], _, c, hc => by simp [join] at hc
  | [t], h, c, hc => h t (by simp) c hc
  | t :: u :: ts, h, c, hc => by
    rw [join, List.mem_append, List.mem_append] at hc
    rcases hc with (hc | hc) | hc
    · exact h t (by simp) c hc
    · exact hs c hc
    · exact plain_join hs (fun x hx => h x (List.mem_cons_of_mem _ hx)) c hc

theorem plain_brackets {l : Nat} {a z : Char} (ha : Plain a) (hz : Plain z) {ts : List Str}
    (h : ∀ t ∈ ts, ∀ c ∈ t, Plain c) {c : Char} (hc : c ∈ inBrackets l a z ts) : Plain c := by
  cases ts with
  | nil =>
    simp only [inBrackets, List.mem_cons, List.not_mem_nil, or_false] at hc
    rcases hc with rfl | rfl <;> assumption
  | cons t ts =>
    simp only [inBrackets, List.mem_append, List.mem_cons, List.cons_append, List.not_mem_nil,
      or_false] at hc
    have hs : ∀ c ∈ ',' :: newLine (l + 1), Plain c := by
      intro c hc
      rcases List.mem_cons.1 hc with rfl | hc
      · right; decide
      · exact plain_newLine hc
    rcases hc with rfl | ((hc | hc) | hc) | rfl
    · exact ha
    · exact plain_newLine hc
    · exact plain_join hs h c hc
    · exact plain_newLine hc
    · exact hz

theorem plain_intStr {n : Int} {c : Char} (h : c ∈ intStr n) : Plain c := by
  have dig : ∀ k : Nat, c ∈ natStr k → Plain c := by
    intro k hk
    have := natStr_digits hk
    rw [← isDec_iff, isDec, Bool.and_eq_true, decide_eq_true_eq, decide_eq_true_eq] at this
    right; omega
  cases n with
  | ofNat k => exact dig k h
  | negSucc k =>
    rcases List.mem_cons.1 h with rfl | h
    · right; decide
    · exact dig _ h

mutual
theorem plain_dump : ∀ (v : JVal) (l : Nat) (c : Char), c ∈ dump l v → Plain c
  | .null, l, c, h => by
    rw [dump] at h
    have : ∀ c ∈ s%"null", c = '\n' ∨ (32 ≤ c.toNat ∧ c.toNat ≤ 126) := by decide
    exact this c h
  | .bool true, l, c, h => by
    rw [dump] at h
    have : ∀ c ∈ s%"true", c = '\n' ∨ (32 ≤ c.toNat ∧ c.toNat ≤ 126) := by decide
    exact this c h
  | .bool false, l, c, h => by
    rw [dump] at h
    have : ∀ c ∈ s%"false", c = '\n' ∨ (32 ≤ c.toNat ∧ c.toNat ≤ 126) := by decide
    exact this c h
  | .int n, l, c, h => by rw [dump] at h; exact plain_intStr h
  | .str s, l, c, h => by rw [dump] at h; exact plain_quote h
  | .arr vs, l, c, h => by
    rw [dump] at h
    exact plain_brackets (by right; decide) (by right; decide) (plain_items vs (l + 1)) h
  | .obj d, l, c, h => by
    rw [dump] at h
    exact plain_brackets (by right; decide) (by right; decide) (plain_pairs d (l + 1)) h
theorem plain_items : ∀ (vs : List JVal) (l : Nat), ∀ t ∈ dumpItems l vs, ∀ c ∈ t, Plain c
  | [], l, t, h, c, hc => by rw [dumpItems] at h; simp at h
  | v :: vs, l, t, h, c, hc => by
    rw [dumpItems] at h
    rcases List.mem_cons.1 h with rfl | h
    · exact plain_dump v l c hc
    · exact plain_items vs l t h c hc
theorem plain_pairs : ∀ (d : List (Str × JVal)) (l : Nat), ∀ t ∈ dumpPairs l d, ∀ c ∈ t, Plain c
  | [], l, t, h, c, hc => by rw [dumpPairs] at h; simp at h
  | (k, v) :: d, l, t, h, c, hc => by
    rw [dumpPairs] at h
    rcases List.mem_cons.1 h with rfl | h
    · simp only [List.mem_append, List.mem_cons, List.not_mem_nil, or_false] at hc
      rcases hc with (hc | (rfl | rfl)) | hc
      · exact plain_quote hc
      · right; decide
      · right; decide
      · exact plain_dump v l c hc
    · exact plain_pairs d l t h c hc
end

end JVal

/-- **C128.** The text that is written has line ends and printable ASCII characters only, so the
encoding that the operating system prefers does not matter. -/
theorem json_plain (v : JVal) : ∀ c ∈ v.dumps, Plain c := fun c hc => JVal.plain_dump v 0 c hc

/-! ## the info file of a set -/

theorem keyed_strings (o : Dict Str Str) : KeyedPairs (o.map fun (k, v) => (k, JVal.str v)) := by
  induction o with
  | nil => exact .nil
  | cons x o ih => exact .cons _ (.str _) ih

theorem keyed_info {o : Dict Str Str} (h : (Dict.keys o).Nodup) : Keyed (Content.value o) := by
  refine .obj ?_ (keyed_strings o)
  rw [List.map_map]; exact h

theorem get?_strings (o : Dict Str Str) (k : Str) :
    Dict.get? (o.map fun (k, v) => (k, JVal.str v)) k = (Dict.get? o k).map .str := by
  induction o with
  | nil => rfl
  | cons x o ih =>
    obtain ⟨a, b⟩ := x
    simp only [List.map_cons, Dict.get?]
    by_cases h : a = k
    · simp [h]
    · simp only [h, if_false]; exact ih

/-- **C128.** What is read from a whole description of a set. -/
theorem info_read_back {o : Dict Str Str} (h : (Dict.keys o).Nodup) :
    readInfoText (Content.text (.json o)) =
      .ok ([s%"ref", s%"sha", s%"zip_url", s%"last_modified"].map fun k => (Dict.get? o k).map .str) := by
  rw [readInfoText, Content.text, json_read_back (keyed_info h)]
  exact congrArg _ (List.map_congr_left fun k _ => get?_strings o k)

/-- **C128.** The description that an installation writes is read back: name, commit, address of the
archive and date. -/
theorem info_written (name sha date written : Str) :
    readInfoText (Content.text (.json (infoFields name sha date written))) =
      .ok [some (.str name), some (.str sha), some (.str (archiveUrl name)), some (.str date)] := by
  rw [info_read_back]
  · rfl
  · show [s%"ref", s%"sha", s%"zip_url", s%"last_modified", s%"# description", s%"# written"].Nodup
    decide

/-- **C128.** A description that is not complete is refused, wherever the writing stopped. -/
theorem info_part_refused {o : Dict Str Str} (h : (Dict.keys o).Nodup) {p : Str}
    (hp : p <+: Content.text (.json o)) (hne : p ≠ Content.text (.json o)) :
    readInfoText p = .error .valueError := by
  rw [readInfoText, json_part_refused (keyed_info h) trivial hp hne]

/-- **C128.** What `read_info_file` makes of an info file is what is read from its text: so the files
of the caches can be taken as descriptions, or as texts that are no JSON. -/
theorem info_file_exact {path : Str} {d : Disk} {item : Str} {c : Content}
    (hd : d [item, infoName] = some (.file c))
    (hc : match c with
      | .json o => (Dict.keys o).Nodup
      | .raw t => JVal.loads t = .error .valueError) :
    (readInfoFile path d item).map
        (fun s => [s.ref, s.sha, s.zipUrl, s.lastModified].map fun x => x.map JVal.str) =
      readInfoText c.text := by
  cases c with
  | json o => rw [info_read_back hc, readInfoFile, hd]; rfl
  | raw t => rw [readInfoText, Content.text, hc, readInfoFile, hd]; rfl

end Punx
