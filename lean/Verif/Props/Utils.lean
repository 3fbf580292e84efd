import Verif.Spec.Utils
import Verif.Lemmas.Basic
import Verif.Props.Sample

/-!
# C36, C37: `punx/utils.py`
-/

namespace Punx
open Spec

/-! ## C36: byte strings -/

/-- A UTF-8 decoder. -/
def utf8Codec (b : List UInt8) : Option Str := b.toByteArray.utf8Decode?.map Array.toList

theorem utf8Codec_isUtf8 : IsUtf8 utf8Codec := by
  intro b s
  rw [utf8Codec]
  constructor
  · intro h
    cases hd : b.toByteArray.utf8Decode? with
    | none => rw [hd] at h; cases h
    | some a =>
      rw [hd] at h
      simp only [Option.map_some, Option.some.injEq] at h
      have e := ByteArray.utf8Encode_get_utf8Decode? (b := b.toByteArray) (h := by rw [hd]; rfl)
      simp only [hd, Option.get_some, h, List.utf8Encode] at e
      have := congrArg (fun x => x.data.toList) e
      simpa [utf8Encode] using this
  · rintro rfl
    have := List.utf8Decode?_utf8Encode (l := s)
    rw [List.utf8Encode] at this
    rw [utf8Encode, this]
    simp

/-- Text is returned unchanged, as is everything that is not bytes or an array of strings. -/
theorem decode_unchanged (env : Env) {v : Val} (h : NotStrings v) :
    decodeByteString env v = .ok v := by
  obtain ⟨h1, h2, h3⟩ := h
  cases v <;> first | rfl | exact absurd rfl (h1 _) | exact absurd rfl (h2 _) | exact absurd rfl (h3 _)

theorem decodeAll_eq_some {f : List UInt8 → Option Str} {xs : List (List UInt8)} {ss : List Str} :
    decodeAll f xs = some ss ↔ List.Forall₂ (fun x s => f x = some s) xs ss := by
  induction xs generalizing ss with
  | nil => simp [decodeAll, eq_comm]
  | cons x xs ih =>
    rw [decodeAll]
    cases hx : f x with
    | none =>
      simp only [reduceCtorEq, false_iff]
      intro h
      cases h with
      | cons h _ => rw [hx] at h; cases h
    | some s =>
      cases hr : decodeAll f xs with
      | none =>
        simp only [reduceCtorEq, false_iff]
        intro h
        cases h with
        | cons _ h => rw [ih.2 h] at hr; cases hr
      | some r =>
        simp only [Option.some.injEq]
        constructor
        · rintro rfl
          exact .cons hx (ih.1 hr)
        · intro h
          cases h with
          | cons h1 h2 =>
            rw [hx] at h1; injection h1 with h1
            rw [ih.2 h2] at hr; injection hr with hr
            rw [h1, hr]

/-- Array elements are decoded one by one; an empty array becomes `None`. -/
theorem decode_array (env : Env) (xs : List (List UInt8)) (r : Val) :
    decodeByteString env (.arrS xs) = .ok r ↔
      (xs = [] ∧ r = .none) ∨
      (xs ≠ [] ∧ ∃ ss, r = .list ss ∧ List.Forall₂ (fun x s => asciiDecode x = some s) xs ss) := by
  simp only [decodeByteString]
  cases xs with
  | nil => simp [eq_comm]
  | cons x xs =>
    simp only [List.length_cons, gt_iff_lt, Nat.succ_pos, if_true]
    cases h : decodeAll asciiDecode (x :: xs) with
    | none =>
      simp only [reduceCtorEq, false_and, false_or, ne_eq, not_false_eq_true, true_and, false_iff]
      rintro ⟨ss, _, hs⟩
      rw [decodeAll_eq_some.2 hs] at h; cases h
    | some ss =>
      simp only [Except.ok.injEq, reduceCtorEq, false_and, false_or, ne_eq, not_false_eq_true,
        true_and]
      constructor
      · rintro rfl
        exact ⟨ss, rfl, decodeAll_eq_some.1 h⟩
      · rintro ⟨ss', rfl, hs⟩
        rw [decodeAll_eq_some.2 hs] at h
        injection h with h
        rw [h]

theorem decode_objects (env : Env) (xs : List Str) :
    decodeByteString env (.arrO xs) = .ok (if xs = [] then .none else .list xs) := by
  cases xs <;> simp [decodeByteString]

/-- Decoding twice is decoding once. -/
theorem decode_idempotent (env : Env) {v r : Val} (h : decodeByteString env v = .ok r) :
    decodeByteString env r = .ok r := by
  cases v with
  | arrO xs =>
    rw [decode_objects] at h
    injection h with h
    rw [← h]
    split <;> rfl
  | arrS xs =>
    rcases (decode_array env xs r).1 h with ⟨_, rfl⟩ | ⟨_, ss, rfl, _⟩ <;> rfl
  | bytes b =>
    simp only [decodeByteString] at h
    split at h
    · injection h with h; rw [← h]; rfl
    · cases h
  | _ => simp only [decodeByteString] at h; injection h with h; rw [← h]; rfl

theorem asciiDecode_spec (b : List UInt8) (s : Str) :
    asciiDecode b = some s ↔ Ascii s ∧ utf8Encode s = b := by
  induction b generalizing s with
  | nil =>
    simp only [asciiDecode, Option.some.injEq]
    constructor
    · rintro rfl
      exact ⟨by intro c hc; simp at hc, rfl⟩
    · rintro ⟨_, h⟩
      cases s with
      | nil => rfl
      | cons c s =>
        exfalso
        have hl := congrArg List.length h
        simp only [utf8Encode, List.flatMap_cons, List.length_append, List.length_nil,
          String.length_utf8EncodeChar] at hl
        have := c.utf8Size_pos
        omega
  | cons x b ih =>
    have enc : ∀ c : Char, c.toNat < 128 → String.utf8EncodeChar c = [UInt8.ofNat c.toNat] := by
      intro c hc
      simp only [String.utf8EncodeChar]
      rw [if_pos]
      · rfl
      · exact Nat.le_of_lt_succ hc
    rw [asciiDecode]
    by_cases hx : x.toNat < 128
    · rw [if_pos hx]
      have hc : (Char.ofNat x.toNat).toNat = x.toNat := by
        have hv : x.toNat.isValidChar := Or.inl (by omega)
        simp [Char.ofNat, hv, Char.toNat, Char.ofNatAux]
      constructor
      · intro h
        rw [Option.map_eq_some_iff] at h
        obtain ⟨t, ht, rfl⟩ := h
        obtain ⟨h1, h2⟩ := (ih t).1 ht
        refine ⟨?_, ?_⟩
        · intro c hcm
          rcases List.mem_cons.1 hcm with rfl | hcm
          · rw [hc]; exact hx
          · exact h1 c hcm
        · rw [utf8Encode, List.flatMap_cons, ← utf8Encode, h2, enc _ (by rw [hc]; exact hx), hc]
          simp
      · rintro ⟨h1, h2⟩
        cases s with
        | nil => simp [utf8Encode] at h2
        | cons c s =>
          have hcs := h1 c (by simp)
          rw [utf8Encode, List.flatMap_cons, ← utf8Encode, enc c hcs] at h2
          simp only [List.cons_append, List.nil_append, List.cons.injEq] at h2
          rw [(ih s).2 ⟨fun c hc => h1 c (by simp [hc]), h2.2⟩]
          have hxc : x.toNat = c.toNat := by
            rw [← h2.1]
            simp
            omega
          simp only [Option.map_some, Option.some.injEq, List.cons.injEq, and_true]
          rw [hxc]
          exact Char.ofNat_toNat c
    · rw [if_neg hx]
      simp only [reduceCtorEq, false_iff, not_and]
      intro h1 h2
      cases s with
      | nil => simp [utf8Encode] at h2
      | cons c s =>
        have hcs := h1 c (by simp)
        rw [utf8Encode, List.flatMap_cons, ← utf8Encode, enc c hcs] at h2
        simp only [List.cons_append, List.nil_append, List.cons.injEq] at h2
        apply hx
        rw [← h2.1]
        simp
        omega

/-- The only failure: bytes that cannot be decoded by the codec, or array elements that are not
ASCII. -/
theorem decode_fails_iff (env : Env) (v : Val) (e : PyErr) :
    decodeByteString env v = .error e ↔ e = .unicodeDecodeError ∧
      ((∃ b, v = .bytes b ∧ env.dec b = none) ∨
       ∃ xs, v = .arrS xs ∧ ∃ x ∈ xs, ∀ s, Ascii s → utf8Encode s ≠ x) := by
  cases v with
  | bytes b =>
    simp only [decodeByteString]
    cases h : env.dec b with
    | none => simp [h, eq_comm]
    | some s => simp [h]
  | arrO xs => rw [decode_objects]; simp
  | arrS xs =>
    have key : (∃ x ∈ xs, ∀ s, Ascii s → utf8Encode s ≠ x) ↔ decodeAll asciiDecode xs = none := by
      constructor
      · rintro ⟨x, hx, hs⟩
        cases h : decodeAll asciiDecode xs with
        | none => rfl
        | some ss =>
          exfalso
          have hf := decodeAll_eq_some.1 h
          obtain ⟨i, hi, rfl⟩ := List.getElem_of_mem hx
          have hl := hf.length_eq
          have := List.Forall₂.get hf hi (hl ▸ hi)
          obtain ⟨h1, h2⟩ := (asciiDecode_spec _ _).1 this
          exact hs _ h1 h2
      · intro h
        by_contra hno
        push Not at hno
        have : ∃ ss, List.Forall₂ (fun x s => asciiDecode x = some s) xs ss := by
          clear h
          induction xs with
          | nil => exact ⟨[], .nil⟩
          | cons x xs ih =>
            obtain ⟨ss, hss⟩ := ih (fun x hx => hno x (by simp [hx]))
            obtain ⟨s, h1, h2⟩ := hno x (by simp)
            exact ⟨s :: ss, .cons ((asciiDecode_spec _ _).2 ⟨h1, h2⟩) hss⟩
        obtain ⟨ss, hss⟩ := this
        rw [decodeAll_eq_some.2 hss] at h
        cases h
    simp only [decodeByteString]
    cases xs with
    | nil => simp
    | cons x xs =>
      simp only [List.length_cons, gt_iff_lt, Nat.succ_pos, if_true, reduceCtorEq, false_and,
        exists_false, false_or, Val.arrS.injEq]
      cases h : decodeAll asciiDecode (x :: xs) with
      | none =>
        simp only [Except.error.injEq]
        constructor
        · rintro rfl
          exact ⟨rfl, x :: xs, rfl, key.2 h⟩
        · rintro ⟨rfl, _⟩; rfl
      | some ss =>
        simp only [reduceCtorEq, false_iff, not_and]
        rintro _ ⟨ys, rfl, hy⟩
        rw [key.1 hy] at h; cases h
  | _ => simp [decodeByteString]

/-- With a UTF-8 terminal, a text encoded by `string_list_to_hdf5` is decoded to itself. -/
theorem decode_encoded (env : Env) (hu : IsUtf8 env.dec) (xs : List Str) :
    List.Forall₂ (fun b s => decodeByteString env (.bytes b) = .ok (.str s))
      (stringListToHdf5 xs) xs := by
  induction xs with
  | nil => exact .nil
  | cons x xs ih =>
    refine .cons ?_ ih
    simp only [decodeByteString]
    rw [(hu _ x).2 rfl]

/-- The encoding loses nothing. -/
theorem stringListToHdf5_injective {xs ys : List Str} (h : stringListToHdf5 xs = stringListToHdf5 ys) :
    xs = ys := by
  have inj : ∀ a b : Str, utf8Encode a = utf8Encode b → a = b := by
    intro a b e
    have h1 := (utf8Codec_isUtf8 (utf8Encode a) a).2 rfl
    have h2 := (utf8Codec_isUtf8 (utf8Encode a) b).2 e.symm
    rw [h1] at h2
    injection h2
  exact (List.map_injective_iff.2 (fun a b e => inj a b e)) h

/-- As an array, the encoded list is decoded to itself if and only if it is not empty and all
texts are ASCII, whatever the terminal. -/
theorem decode_encoded_array_partial (env : Env) (xs : List Str) :
    decodeByteString env (.arrS (stringListToHdf5 xs)) = .ok (.list xs) ↔
      xs ≠ [] ∧ ∀ x ∈ xs, Ascii x := by
  rw [decode_array]
  constructor
  · rintro (⟨_, h⟩ | ⟨h1, ss, h2, h3⟩)
    · cases h
    · injection h2 with h2
      subst h2
      refine ⟨by rintro rfl; exact h1 rfl, ?_⟩
      clear h1
      induction xs with
      | nil => intro x hx; simp at hx
      | cons a xs ih =>
        cases h3 with
        | cons h4 h5 =>
          intro x hx
          rcases List.mem_cons.1 hx with rfl | hx
          · exact ((asciiDecode_spec _ _).1 h4).1
          · exact ih h5 x hx
  · rintro ⟨h1, h2⟩
    refine .inr ⟨by simpa [stringListToHdf5] using h1, xs, rfl, ?_⟩
    clear h1
    induction xs with
    | nil => exact .nil
    | cons a xs ih =>
      exact .cons ((asciiDecode_spec _ _).2 ⟨h2 a (by simp), rfl⟩)
        (ih (fun x hx => h2 x (by simp [hx])))

/-- C36 is false for arrays: a list with a text that is not ASCII, stored with
`string_list_to_hdf5`, cannot be read back. -/
theorem decode_encoded_array_fails (env : Env) :
    decodeByteString env (.arrS (stringListToHdf5 [s%"time", s%"µm"])) =
      .error .unicodeDecodeError := by
  have h : decodeAll asciiDecode (stringListToHdf5 [s%"time", s%"µm"]) = none := by decide +kernel
  simp only [decodeByteString, h]
  rfl

example : decodeByteString sampleEnv (.arrS (stringListToHdf5 [s%"time", s%"x"])) =
    .ok (.list [s%"time", s%"x"]) :=
  (decode_encoded_array_partial _ _).2 ⟨by decide, by simp [Ascii]⟩

example : utf8Codec (utf8Encode s%"µm") = some s%"µm" := (utf8Codec_isUtf8 _ _).2 rfl

/-! ## C37: NeXus files -/

theorem attrGet_eq (attrs : List (Str × Val)) (k : Str) : attrGet attrs k = attrs.lookup k := by
  rfl

theorem decode_text_iff (env : Env) (v : Val) (c : Str) :
    decodeByteString env v = .ok (.str c) ↔ TextOf env v c := by
  cases v with
  | arrO xs => rw [decode_objects]; split <;> simp [TextOf]
  | arrS xs =>
    rw [decode_array]
    simp [TextOf]
  | bytes b =>
    simp only [decodeByteString, TextOf]
    cases h : env.dec b <;> simp [h]
  | _ => simp [decodeByteString, TextOf]

/-- `isNeXusGroup`: when it is true, and when it fails. -/
theorem isNeXusGroup_spec (env : Env) (n : Node) (c : Str) :
    (isNeXusGroup env n c = .ok true ↔ GroupOf env c n) ∧
    ((∃ e, isNeXusGroup env n c = .error e) ↔ BadClass env n) ∧
    isNeXusGroup env n c ≠ .error .keyError := by
  cases n with
  | dataset name attrs d => simp [isNeXusGroup, GroupOf, BadClass]
  | datatype name attrs => simp [isNeXusGroup, GroupOf, BadClass]
  | group name attrs kids =>
    simp only [isNeXusGroup, attrGet_eq]
    have hg : GroupOf env c (.group name attrs kids) ↔
        ∃ v, attrs.lookup s%"NX_class" = some v ∧ FirstText env v c := by
      constructor
      · rintro ⟨_, _, _, v, h, h1, h2⟩
        cases h
        exact ⟨v, h1, h2⟩
      · rintro ⟨v, h1, h2⟩
        exact ⟨_, _, _, v, rfl, h1, h2⟩
    have hb : BadClass env (.group name attrs kids) ↔
        ∃ v, attrs.lookup s%"NX_class" = some v ∧
        ((v = .arrO [] ∨ v = .arrS [] ∨ v = .arrNum []) ∨
          (∃ b, v = .bytes b ∧ env.dec b = none) ∨
          ∃ b xs, v = .arrS (b :: xs) ∧ env.dec b = none) := by
      constructor
      · rintro ⟨_, _, _, v, h, h1, h2⟩
        cases h
        exact ⟨v, h1, h2⟩
      · rintro ⟨v, h1, h2⟩
        exact ⟨_, _, _, v, rfl, h1, h2⟩
    rw [hg, hb]
    cases hv : attrs.lookup s%"NX_class" with
    | none => simp
    | some v =>
      simp only [Option.some.injEq, exists_eq_left']
      cases v with
      | str t => simp [decodeByteString, FirstText, TextOf, bind, Except.bind]
      | bytes b =>
        cases h : env.dec b <;>
          simp [decodeByteString, FirstText, TextOf, bind, Except.bind, h]
      | arrO xs =>
        cases xs <;> simp [decodeByteString, FirstText, TextOf, bind, Except.bind]
      | arrS xs =>
        cases xs with
        | nil => simp [FirstText, TextOf, bind, Except.bind]
        | cons x xs =>
          cases h : env.dec x <;>
            simp [decodeByteString, FirstText, TextOf, bind, Except.bind, h]
      | arrNum xs =>
        cases xs <;> simp [decodeByteString, FirstText, TextOf, bind, Except.bind]
      | _ => simp [decodeByteString, FirstText, TextOf, bind, Except.bind]

theorem loop_error {env : Env} {n : Node} {e : PyErr} (nm : Str) (l : List (Str × Option Node))
    (h : isNeXusGroup env n s%"NXentry" = .error e) (he : e ≠ .keyError) :
    isNeXusFileLoop env ((nm, some n) :: l) = .error e := by
  simp only [isNeXusFileLoop, h]

theorem isNeXusFileLoop_true (env : Env) (l : List (Str × Option Node)) :
    isNeXusFileLoop env l = .ok true ↔ ∃ before name n after, l = before ++ (name, some n) :: after ∧
      GroupOf env s%"NXentry" n ∧ ∀ name m, (name, some m) ∈ before → ¬ BadClass env m := by
  induction l with
  | nil => simp [isNeXusFileLoop]
  | cons x l ih =>
    have cons_iff : ∀ y : Str × Option Node, (∀ n, y.2 = some n → ¬ GroupOf env s%"NXentry" n) →
        (∀ n, y.2 = some n → ¬ BadClass env n) →
        ((∃ before name n after, l = before ++ (name, some n) :: after ∧
          GroupOf env s%"NXentry" n ∧ ∀ name m, (name, some m) ∈ before → ¬ BadClass env m) ↔
        ∃ before name n after, y :: l = before ++ (name, some n) :: after ∧
          GroupOf env s%"NXentry" n ∧ ∀ name m, (name, some m) ∈ before → ¬ BadClass env m) := by
      intro y hy1 hy2
      constructor
      · rintro ⟨b, name, n, a, rfl, h1, h2⟩
        refine ⟨y :: b, name, n, a, rfl, h1, ?_⟩
        intro nm m hm
        rcases List.mem_cons.1 hm with e | hm
        · exact hy2 m (by rw [← e])
        · exact h2 nm m hm
      · rintro ⟨b, name, n, a, e, h1, h2⟩
        cases b with
        | nil =>
          simp only [List.nil_append, List.cons.injEq] at e
          exact absurd h1 (hy1 n (by rw [e.1]))
        | cons z b =>
          simp only [List.cons_append, List.cons.injEq] at e
          exact ⟨b, name, n, a, e.2, h1, fun nm m hm => h2 nm m (by simp [hm])⟩
    obtain ⟨nm, _ | n⟩ := x
    · simp only [isNeXusFileLoop]
      rw [ih]
      exact cons_iff _ (by simp) (by simp)
    · obtain ⟨h1, h2, h3⟩ := isNeXusGroup_spec env n s%"NXentry"
      cases hr : isNeXusGroup env n s%"NXentry" with
      | ok b =>
        simp only [isNeXusFileLoop, hr]
        have hnb : ¬ BadClass env n := by
          rw [← h2, hr]; rintro ⟨e, he⟩; cases he
        cases b with
        | true =>
          simp only [true_iff]
          exact ⟨[], nm, n, l, rfl, h1.1 hr, by simp⟩
        | false =>
          have hng : ¬ GroupOf env s%"NXentry" n := by
            rw [← h1, hr]; simp
          simp only []
          rw [ih]
          refine cons_iff _ ?_ ?_
          · intro m hm; cases hm; exact hng
          · intro m hm; cases hm; exact hnb
      | error e =>
        have hbad : BadClass env n := h2.1 ⟨e, hr⟩
        have hng : ¬ GroupOf env s%"NXentry" n := by
          rw [← h1, hr]; simp
        rw [loop_error nm l hr (fun he => h3 (he ▸ hr))]
        simp only [reduceCtorEq, false_iff]
        rintro ⟨b, name, n', a, e', k1, k2⟩
        cases b with
        | nil =>
          simp only [List.nil_append, List.cons.injEq, Prod.mk.injEq, Option.some.injEq] at e'
          rw [e'.1.2] at hng
          exact hng k1
        | cons z b =>
          simp only [List.cons_append, List.cons.injEq] at e'
          exact k2 nm n (by simp [e'.1]) hbad

theorem isNeXusFileLoop_false (env : Env) (l : List (Str × Option Node)) :
    isNeXusFileLoop env l = .ok false ↔
      ∀ name n, (name, some n) ∈ l → ¬ GroupOf env s%"NXentry" n ∧ ¬ BadClass env n := by
  induction l with
  | nil => simp [isNeXusFileLoop]
  | cons x l ih =>
    obtain ⟨nm, _ | n⟩ := x
    · simp only [isNeXusFileLoop, ih]
      simp
    · obtain ⟨h1, h2, h3⟩ := isNeXusGroup_spec env n s%"NXentry"
      have split : (∀ name m, (name, some m) ∈ (nm, some n) :: l →
          ¬ GroupOf env s%"NXentry" m ∧ ¬ BadClass env m) ↔
          (¬ GroupOf env s%"NXentry" n ∧ ¬ BadClass env n) ∧
          ∀ name m, (name, some m) ∈ l → ¬ GroupOf env s%"NXentry" m ∧ ¬ BadClass env m := by
        constructor
        · intro h
          exact ⟨h nm n (by simp), fun a b hab => h a b (by simp [hab])⟩
        · rintro ⟨ha, hb⟩ name m hm
          rcases List.mem_cons.1 hm with e | hm
          · cases e; exact ha
          · exact hb name m hm
      rw [split]
      cases hr : isNeXusGroup env n s%"NXentry" with
      | ok b =>
        simp only [isNeXusFileLoop, hr]
        have hnb : ¬ BadClass env n := by
          rw [← h2, hr]; rintro ⟨e, he⟩; cases he
        cases b with
        | true => simp [h1.1 hr]
        | false =>
          have hng : ¬ GroupOf env s%"NXentry" n := by
            rw [← h1, hr]; simp
          simp only [hng, hnb, not_false_eq_true, true_and, and_self]
          exact ih
      | error e =>
        have hbad : BadClass env n := h2.1 ⟨e, hr⟩
        rw [loop_error nm l hr (fun he => h3 (he ▸ hr))]
        simp [hbad]

/-- C37: a file is reported to be a NeXus file exactly if some member of its root is a group with
NX_class NXentry, and no member before it has an NX_class that cannot be read; broken links are
skipped.  It is reported not to be one exactly if no member is such a group, and all NX_class can
be read.  A missing file gives `None`, a file that is not HDF5 `OSError`. -/
theorem isNeXusFile_spec (env : Env) :
    isNeXusFile env .missing = .ok none ∧
    isNeXusFile env .notHdf5 = .error .osError ∧
    (∀ f, isNeXusFile env (.hdf5 f) = .ok (some true) ↔
      ∃ before name n after, f.kids.toList = before ++ (name, some n) :: after ∧
        GroupOf env s%"NXentry" n ∧ ∀ name m, (name, some m) ∈ before → ¬ BadClass env m) ∧
    (∀ f, isNeXusFile env (.hdf5 f) = .ok (some false) ↔
      ∀ name n, (name, some n) ∈ f.kids.toList →
        ¬ GroupOf env s%"NXentry" n ∧ ¬ BadClass env n) ∧
    (∀ f, isNeXusFile env (.hdf5 f) ≠ .ok none) := by
  have key : ∀ f b, isNeXusFile env (.hdf5 f) = .ok (some b) ↔
      isNeXusFileLoop env f.kids.toList = .ok b := by
    intro f b
    simp only [isNeXusFile, bind, Except.bind]
    cases isNeXusFileLoop env f.kids.toList <;> simp
  refine ⟨rfl, rfl, fun f => ?_, fun f => ?_, fun f => ?_⟩
  · rw [key, isNeXusFileLoop_true]
  · rw [key, isNeXusFileLoop_false]
  · simp only [isNeXusFile, bind, Except.bind]
    cases isNeXusFileLoop env f.kids.toList <;> simp

/-- C37 for files whose root has no unreadable NX_class: true or false, and true exactly if there
is an NXentry group. -/
theorem isNeXusFile_readable (env : Env) (f : H5File)
    (h : ∀ name n, (name, some n) ∈ f.kids.toList → ¬ BadClass env n) :
    ∃ b, isNeXusFile env (.hdf5 f) = .ok (some b) ∧
      (b = true ↔ ∃ name n, (name, some n) ∈ f.kids.toList ∧ GroupOf env s%"NXentry" n) := by
  obtain ⟨_, _, h1, h2, _⟩ := isNeXusFile_spec env
  by_cases hx : ∃ name n, (name, some n) ∈ f.kids.toList ∧ GroupOf env s%"NXentry" n
  · refine ⟨true, (h1 f).2 ?_, by simp [hx]⟩
    obtain ⟨name, n, hm, hg⟩ := hx
    obtain ⟨b, a, e⟩ := List.append_of_mem hm
    exact ⟨b, name, n, a, e, hg, fun nm m hm => h nm m (by rw [e]; simp [hm])⟩
  · refine ⟨false, (h2 f).2 ?_, by simp [hx]⟩
    intro name n hm
    exact ⟨fun hg => hx ⟨name, n, hm, hg⟩, h name n hm⟩

example : isNeXusFile sampleEnv (.hdf5 nameFile) = .ok (some true) := by rfl

/-- A root with a broken link, a dataset and a group of another class. -/
example : isNeXusFile sampleEnv (.hdf5 ⟨[], .broken s%"a" (.soft s%"/x")
    (.cons s%"b" .hard (.dataset s%"/b" [(s%"NX_class", .str s%"NXentry")] (.ofVal (.int 1)))
    (.cons s%"c" .hard (.group s%"/c" [(s%"NX_class", .str s%"NXdata")] .nil) .nil))⟩) =
    .ok (some false) := by rfl

/-- An NX_class that is an empty array stops the search. -/
example : isNeXusFile sampleEnv (.hdf5 ⟨[], .cons s%"c" .hard
    (.group s%"/c" [(s%"NX_class", .arrO [])] .nil) nameFile.kids⟩) = .error .indexError := by rfl

end Punx
