import Verif.Spec.TreeData
import Verif.Props.H5TreeArray

/-!
# C141: type and texts of datasets in the tree
-/

namespace Punx
open Spec

/-- **C141.** The type that is shown for a dataset with a shape. -/
theorem type_shown (c : TreeCfg) (di : DataInfo) {sh : List Nat} (hs : di.shape = some sh) :
    renderDsType c di = .ok (typeName c.isNeXus di) := by
  unfold renderDsType typeName
  rw [hs]
  cases di.kind <;> cases sh <;> rfl

theorem mapE_quoted {env : Env} {xs : List (List UInt8)} {ss : List Str}
    (h : List.Forall₂ (fun b s => env.dec b = some s) xs ss) :
    mapE (fun b => match env.dec b with
      | some s => Except.ok ('"' :: s ++ s%"\"")
      | none => .error PyErr.unicodeDecodeError) xs = .ok (ss.map quotedText) := by
  induction h with
  | nil => rfl
  | cons h _ ih =>
    unfold mapE
    rw [h]
    dsimp only
    rw [ih]
    rfl

theorem mapE_unquoted {env : Env} {xs : List (List UInt8)} {b : List UInt8} (hb : b ∈ xs)
    (h : env.dec b = none) :
    mapE (fun b => match env.dec b with
      | some s => Except.ok ('"' :: s ++ s%"\"")
      | none => .error PyErr.unicodeDecodeError) xs = .error .unicodeDecodeError := by
  induction xs with
  | nil => cases hb
  | cons x xs ih =>
    unfold mapE
    cases hx : env.dec x with
    | none => rfl
    | some s =>
      rcases List.mem_cons.1 hb with rfl | hb
      · rw [h] at hx; cases hx
      · dsimp only; rw [ih hb]

theorem shape_shown {di : DataInfo} {sh : List Nat} (hs : di.shape = some sh) :
    ∃ t, renderDsShape di = .ok t := by
  unfold renderDsShape
  rw [hs]
  split
  · rename_i h; cases h
  · exact ⟨_, rfl⟩
  · exact ⟨_, rfl⟩

theorem renderStrings_flat {env : Env} {di : DataInfo} {sh : List Nat} {xs : List (List UInt8)}
    (hs : di.shape = some sh) (hv : di.value = .arrS xs) (hr : sh.length < 2 ∨ ∃ r, sh = 0 :: r) :
    renderStrings env di = (mapE (fun b => match env.dec b with
      | some s => Except.ok ('"' :: s ++ s%"\"")
      | none => .error PyErr.unicodeDecodeError) xs).bind fun ss =>
      .ok (if ss.length > 1 then s%" = [" ++ join s%", " ss ++ s%"]" else s%" = " ++ join s%", " ss) := by
  unfold renderStrings hasRows
  rw [hv, hs]
  rcases sh with _ | ⟨a, _ | ⟨b, r⟩⟩
  · rfl
  · rfl
  · rcases hr with hr | ⟨_, hr⟩
    · simp only [List.length_cons] at hr; omega
    · cases hr
      rfl

theorem renderData_S {c : TreeCfg} {di : DataInfo} {name indent : Str} {sh : List Nat}
    (hk : di.kind = .S) (hs : di.shape = some sh) :
    renderData c di name indent = (renderStrings c.env di).bind fun value =>
      .ok [⟨.header, indent ++ name ++ ':' :: typeName c.isNeXus di ++ value⟩] := by
  obtain ⟨t, ht⟩ := shape_shown hs
  unfold renderData
  simp only [type_shown c di hs, ht, hk, bind, Except.bind]

/-- **C141.** The line of a dataset of texts of fixed length with fewer than two dimensions, or
without rows: name, type and the texts. -/
theorem texts_line (c : TreeCfg) (di : DataInfo) (name indent : Str) {sh : List Nat}
    {xs : List (List UInt8)} {ss : List Str} (hk : di.kind = .S) (hs : di.shape = some sh)
    (hv : di.value = .arrS xs) (hr : sh.length < 2 ∨ ∃ r, sh = 0 :: r)
    (hd : List.Forall₂ (fun b s => c.env.dec b = some s) xs ss) :
    renderData c di name indent = .ok [⟨.header,
      indent ++ name ++ ':' :: typeName c.isNeXus di ++ (s%" = " ++ textsShown ss)⟩] := by
  have hm := mapE_quoted hd
  have : renderStrings c.env di = .ok (s%" = " ++ textsShown ss) := by
    rw [renderStrings_flat hs hv hr, hm]
    rcases ss with _ | ⟨s, _ | ⟨s', ss⟩⟩
    · rfl
    · rfl
    · simp [textsShown, Except.bind]
  rw [renderData_S hk hs, this]
  rfl

/-- **C141.** With more dimensions the program fails, and so it does if a text cannot be decoded. -/
theorem texts_fail (c : TreeCfg) (di : DataInfo) (name indent : Str) {sh : List Nat}
    {xs : List (List UInt8)} (hk : di.kind = .S) (hs : di.shape = some sh) (hv : di.value = .arrS xs) :
    (2 ≤ sh.length → sh.head? ≠ some 0 → renderData c di name indent = .error .typeError) ∧
    (sh.length < 2 → (∃ b ∈ xs, c.env.dec b = none) →
      renderData c di name indent = .error .unicodeDecodeError) := by
  rw [renderData_S hk hs]
  refine ⟨fun h2 hx => ?_, fun h2 ⟨b, hb, hn⟩ => ?_⟩
  · have : renderStrings c.env di = .error .typeError := by
      unfold renderStrings hasRows
      rw [hv, hs]
      rcases sh with _ | ⟨a, _ | ⟨b, r⟩⟩
      · simp at h2
      · simp at h2
      · have : a ≠ 0 := fun e => hx (by rw [e]; rfl)
        simp [this]
    rw [this]; rfl
  · have hm := mapE_unquoted hb hn
    have : renderStrings c.env di = .error .unicodeDecodeError := by
      rw [renderStrings_flat hs hv (Or.inl h2), hm]
      rfl
    rw [this]; rfl

/-- **C141.** A single text of fixed length is shown without quotes. -/
theorem text_line (c : TreeCfg) (di : DataInfo) (name indent : Str) {sh : List Nat}
    {b : List UInt8} (hk : di.kind = .S) (hs : di.shape = some sh) (hv : di.value = .bytes b) :
    renderData c di name indent = match c.env.dec b with
      | some s => .ok [⟨.header, indent ++ name ++ ':' :: typeName c.isNeXus di ++ (s%" = " ++ s)⟩]
      | none => .error .unicodeDecodeError := by
  rw [renderData_S hk hs]
  unfold renderStrings
  rw [hv]
  dsimp only
  cases hd : c.env.dec b <;> simp [decodeByteString, hd, bind, Except.bind, pyStr]

/-- **C141.** Texts of any length: the line has numpy's text of the value. -/
theorem long_text_line (c : TreeCfg) (di : DataInfo) (name indent : Str) {sh : List Nat}
    (hk : di.kind = .O) (hs : di.shape = some sh) :
    renderData c di name indent = .ok [⟨.header,
      indent ++ name ++ ':' :: typeName c.isNeXus di ++ s%" = " ++ di.text⟩] := by
  obtain ⟨t, ht⟩ := shape_shown hs
  unfold renderData
  simp only [type_shown c di hs, ht, hk, bind, Except.bind]

/-- **C141.** A single number is shown without the shape `[1]`. -/
theorem number_line (c : TreeCfg) (di : DataInfo) (name indent : Str)
    (hk : di.kind = .other) (hs : di.shape = some [1]) :
    renderData c di name indent = .ok [⟨.header,
      indent ++ name ++ ':' :: typeName c.isNeXus di ++ s%" = " ++ di.first⟩] := by
  unfold renderData
  have ht : renderDsShape di = .ok [] := by unfold renderDsShape; rw [hs]; rfl
  simp only [type_shown c di hs, ht, hk, hs, bind, Except.bind, List.append_nil]

/-- Three texts, the second one empty. -/
def threeTexts : DataInfo :=
  ⟨.arrS [[65], [], [66, 67]], .S, s%"|S2", some [3], [2, 2, 2], [], fun _ => [], []⟩

/-- Their line in a NeXus file and in another one; the same bytes in two dimensions. -/
theorem three_texts_case (env : Env) (hd : env.dec [65] = some s%"A" ∧ env.dec [] = some [] ∧
    env.dec [66, 67] = some s%"BC") :
    renderData ⟨env, true, true, 5⟩ threeTexts s%"t" s%"  " =
      .ok [⟨.header, s%"  t:NX_CHAR[2,2,2] = [\"A\", \"\", \"BC\"]"⟩] ∧
    renderData ⟨env, false, true, 5⟩ threeTexts s%"t" s%"  " =
      .ok [⟨.header, s%"  t:char[2,2,2] = [\"A\", \"\", \"BC\"]"⟩] ∧
    renderData ⟨env, true, true, 5⟩ { threeTexts with shape := some [1, 3] } s%"t" [] =
      .error .typeError := by
  have hall : List.Forall₂ (fun b s => env.dec b = some s) [[65], [], [66, 67]] [s%"A", [], s%"BC"] :=
    .cons hd.1 (.cons hd.2.1 (.cons hd.2.2 .nil))
  refine ⟨?_, ?_, ?_⟩
  · rw [texts_line _ _ _ _ rfl rfl rfl (Or.inl (by simp)) hall]; rfl
  · rw [texts_line _ _ _ _ rfl rfl rfl (Or.inl (by simp)) hall]; rfl
  · exact (texts_fail _ _ _ _ rfl rfl rfl).1 (by simp) (by simp)

end Punx
