import Verif.Lemmas.Pick
import Verif.Spec.Attributes
import Verif.Lemmas.Paths

/-!
# C17–C19, C60, C61: values of attributes
-/

namespace Punx
open Spec

/-- The findings of the attribute checks recorded for the item with identity `o`: test names
"attribute value", "valid name @..." and "axes['...". -/
def attrFindings (effs : List Eff) (o : List Nat) : List Finding := pick isAttrTest effs o

theorem nameVerdict_spec (ctx : Ctx) (s : Str) :
    ValueNameRule s (RelaxedBy ctx.env.word ctx.mgr s) (nameVerdict (matchKey ctx s)).1 := by
  rcases matchKey_cases ctx s with ⟨h1, h2⟩ | ⟨h1, h2, k, h3, h4⟩ | ⟨h1, h2, h3⟩
  · rw [h2]
    exact ⟨fun _ => rfl, fun h => absurd h1 h, fun h => absurd h1 h⟩
  · rw [h3, nameVerdict, h4]
    exact ⟨fun h => absurd h h1, fun _ _ => rfl, fun _ h => absurd h2 h⟩
  · rw [h3]
    exact ⟨fun h => absurd h h1, fun _ h => absurd h h2, fun _ _ => rfl⟩

/-- The attribute check of an attribute item with an address. -/
theorem attributeVerify_attr {env : Env} {mgr : Manager} {mins : Dict (Str × Str) Int}
    {f : H5File} (h : (validateOpen env mgr mins f).res = .ok ()) {it : Item}
    (hit : it ∈ (catalog env f).log) {v : Val} (hobj : it.obj = .val v) {a : Str}
    (ha : it.addr = some a) {owner : Item} (hp : it.parent = some owner) (ctx : Ctx) :
    attributeVerify ctx it =
      if it.name = s%"NX_class" then nxclassHandler ctx it
      else if it.name = s%"target" then targetHandler ctx it
      else if it.name = s%"signal" then signalHandler ctx it owner
      else if it.name = s%"axes" then axesHandler ctx it owner
      else genericHandler it := by
  obtain ⟨_, _, oa, _, _, _, _, _, _, h7, _, _, _⟩ :=
    attr_shape (catalogued (completed h).catalog hit) hobj ha
  have : hasAt a = true := by rw [hasAt_iff, h7]; simp
  rw [attributeVerify, ha]
  simp only [this, if_true, hp]

/-! ## C17: signal -/

/-- C17, groups: in a completed validation the `signal` attribute of a NeXus group is text, and
its findings are exactly: a verdict on the text as a name, then OK if the text names a link of
the group (as a path), else ERROR. -/
theorem signal_of_group {env : Env} {mgr : Manager} {mins : Dict (Str × Str) Int}
    {f : H5File} (h : (validateOpen env mgr mins f).res = .ok ()) {it owner : Item}
    (hit : it ∈ (catalog env f).log) {v : Val} (hobj : it.obj = .val v) {a : Str}
    (ha : it.addr = some a) (hn : it.name = s%"signal") (hp : it.parent = some owner)
    {gn : Str} {ga : List (Str × Val)} {gk : Kids} (ho : owner.obj = .node (.group gn ga gk)) :
    ∃ s st c st' c', TextOf env v s ∧
      attrFindings (validateOpen env mgr mins f).log it.oid =
        [⟨some a, s%"valid name @signal=" ++ s, st, c⟩, ⟨some a, s%"attribute value", st', c'⟩] ∧
      ValueNameRule s (RelaxedBy env.word mgr s) st ∧
      (h5contains f (.group gn ga gk) s = true → st' = .ok) ∧
      (h5contains f (.group gn ga gk) s = false → st' = .error) := by
  obtain ⟨hok, e⟩ := attrFindings_run h hit
  rw [attrFindings, e]
  rw [attributeVerify_attr h hit hobj ha hp, hn] at hok ⊢
  simp only [List.cons.injEq, Char.reduceEq, false_and, if_false, if_true, reduceCtorEq,
    and_false, signalHandler, hobj, ho, isHdf5Dataset, Bool.false_eq_true] at hok ⊢
  rw [W.bind_ok_iff] at hok
  obtain ⟨d, hd, hok⟩ := hok
  rw [W.lift_res] at hd
  have hd' : decodeByteString env v = .ok d := hd
  rw [hd, W.lift_ok_bind]
  cases d with
  | str s =>
    simp only
    rw [findings_record_bind]
    have hv := nameVerdict_spec (mkCtx env mgr mins f) s
    split
    · rename_i hc
      rw [findings_record, ha]
      exact ⟨s, _, _, _, _, decode_text hd', rfl, hv, fun _ => rfl,
        fun hf => absurd (hf.symm.trans hc) (by simp)⟩
    · rename_i hc
      rw [findings_record, ha]
      exact ⟨s, _, _, _, _, decode_text hd', rfl, hv, fun hf => absurd hf hc, fun _ => rfl⟩
  | _ => cases hok

/-- What it means that a simple name is contained in a group. -/
theorem h5contains_simple (f : H5File) (n : Str) (a : List (Str × Val)) (ks : Kids) {s : Str}
    (h : SimpleName s) : h5contains f (.group n a ks) s = true ↔ s ∈ ks.toList.map (·.1) := by
  obtain ⟨h1, h2, h3⟩ := h
  have hparts : pathParts s = [s] := by
    rw [pathParts, split_noSep h2]
    simp [h1, h3]
  have hstart : startNode f (.group n a ks) s = .group n a ks := by
    rw [startNode, if_neg]
    rw [startsWith_iff]
    rintro ⟨t, rfl⟩
    simp at h2
  have hdot : ¬ endsInDot s = true := by
    rw [endsInDot_of (cs := [s]) (by rw [split_noSep h2]; simp [h1]) (by simpa using h3)]
    simp
  rw [h5contains, if_neg h1, if_neg hdot, hparts, hstart, linkExists, Kids.find]
  rw [List.lookup_isSome_iff]
  simp

/-- What it means that a simple name followed by "/." is contained in a group: the member is a
group. -/
theorem h5contains_dot (f : H5File) (n : Str) (a : List (Str × Val)) (ks : Kids) {s : Str}
    (h : SimpleName s) : h5contains f (.group n a ks) (s ++ s%"/.") = true ↔
      ∃ n' a' ks', ks.toList.lookup s = some (some (.group n' a' ks')) := by
  obtain ⟨h1, h2, h3⟩ := h
  have hs : split '/' (s ++ s%"/.") = [s, s%"."] := split_append_sep h2 (s%".")
  have hstart : startNode f (.group n a ks) (s ++ s%"/.") = .group n a ks := by
    rw [startNode, if_neg]
    rw [startsWith_iff]
    rintro ⟨t, e⟩
    cases s with
    | nil => exact h1 rfl
    | cons c cs =>
      injection e with e _
      subst e
      simp at h2
  have hparts : pathParts (s ++ s%"/.") = [s] := by
    rw [pathParts, hs]
    simp [h1, h3]
  have hdot : endsInDot (s ++ s%"/.") = true := by
    rw [endsInDot, hs]
    simp [h1]
  rw [h5contains, if_neg (by simp), if_pos hdot, hparts, hstart, groupThere_iff]
  simp only [resolve, Kids.find]
  cases ks.toList.lookup s with
  | none => simp
  | some o =>
    cases o with
    | none => simp
    | some m => cases m <;> simp [Node.grp]

/-- C17, groups, for names without path syntax: OK exactly if the group has a link of that
name. -/
theorem signal_of_group_simple {env : Env} {mgr : Manager} {mins : Dict (Str × Str) Int}
    {f : H5File} (h : (validateOpen env mgr mins f).res = .ok ()) {it owner : Item}
    (hit : it ∈ (catalog env f).log) {v : Val} (hobj : it.obj = .val v) {a : Str}
    (ha : it.addr = some a) (hn : it.name = s%"signal") (hp : it.parent = some owner)
    {gn : Str} {ga : List (Str × Val)} {gk : Kids} (ho : owner.obj = .node (.group gn ga gk))
    {s : Str} (hs : TextOf env v s) (hsimple : SimpleName s) :
    ∃ st c st' c', attrFindings (validateOpen env mgr mins f).log it.oid =
        [⟨some a, s%"valid name @signal=" ++ s, st, c⟩, ⟨some a, s%"attribute value", st', c'⟩] ∧
      ValueNameRule s (RelaxedBy env.word mgr s) st ∧
      (s ∈ gk.toList.map (·.1) → st' = .ok) ∧ (s ∉ gk.toList.map (·.1) → st' = .error) := by
  obtain ⟨s', st, c, st', c', h1, h2, h3, h4, h5⟩ := signal_of_group h hit hobj ha hn hp ho
  have : s' = s := by
    rcases h1 with h1 | ⟨b, h1, hb⟩ <;> rcases hs with hs | ⟨b', hs, hb'⟩
    · rw [h1] at hs; injection hs
    · rw [h1] at hs; cases hs
    · rw [h1] at hs; cases hs
    · rw [h1] at hs; injection hs with hs; subst hs; rw [hb] at hb'; injection hb'
  subst this
  refine ⟨st, c, st', c', h2, h3, fun hm => h4 ((h5contains_simple f gn ga gk hsimple).2 hm),
    fun hm => h5 ?_⟩
  rw [Bool.eq_false_iff, ne_eq, h5contains_simple f gn ga gk hsimple]
  exact hm

theorem natStr_one : intStr 1 = s%"1" := by rfl

theorem pyStr_one {env : Env} (h1 : env.isdigit s%"1" = true) : 
    env.isdigit (pyStr env (.int 1)) = true := by
  rw [pyStr, natStr_one]; exact h1

/-- C17, fields: in a completed validation the `signal` attribute of a field gets exactly one
finding: OK if it marks the first signal, else NOTE. -/
theorem signal_of_field {env : Env} {mgr : Manager} {mins : Dict (Str × Str) Int}
    {f : H5File} (hdig : env.isdigit s%"1" = true)
    (h : (validateOpen env mgr mins f).res = .ok ()) {it owner : Item}
    (hit : it ∈ (catalog env f).log) {v : Val} (hobj : it.obj = .val v) {a : Str}
    (ha : it.addr = some a) (hn : it.name = s%"signal") (hp : it.parent = some owner)
    (ho : isHdf5Dataset owner.obj = true) :
    ∃ st c, attrFindings (validateOpen env mgr mins f).log it.oid =
        [⟨some a, s%"attribute value", st, c⟩] ∧
      (MarksOne env v → st = .ok) ∧ (¬ MarksOne env v → st = .note) := by
  obtain ⟨hok, e⟩ := attrFindings_run h hit
  rw [attrFindings, e]
  rw [attributeVerify_attr h hit hobj ha hp, hn] at hok ⊢
  simp only [List.cons.injEq, Char.reduceEq, false_and, if_false, if_true, reduceCtorEq,
    and_false, signalHandler, hobj, ho] at hok ⊢
  rw [W.bind_ok_iff] at hok
  obtain ⟨d, hd, hok⟩ := hok
  rw [W.lift_res] at hd
  have hd' : decodeByteString env v = .ok d := hd
  rw [hd, W.lift_ok_bind]
  rw [W.bind_ok_iff] at hok
  obtain ⟨one, hone, hok⟩ := hok
  rw [W.lift_res] at hone
  have henv : (mkCtx env mgr mins f).env = env := rfl
  rw [henv] at hone ⊢
  have key : one = true ↔ MarksOne env v := by
    by_cases hdg : env.isdigit (pyStr env d) = true
    · rw [if_pos hdg] at hone
      cases d with
      | int n =>
        have hv : v = .int n := by
          cases v with
          | int m => simpa [decodeByteString] using hd'
          | bytes b => simp only [decodeByteString] at hd'; split at hd' <;> cases hd'
          | arrO b => simp only [decodeByteString] at hd'; split at hd' <;> cases hd'
          | arrS b =>
            simp only [decodeByteString] at hd'
            split at hd'
            · split at hd' <;> cases hd'
            · cases hd'
          | _ => simp only [decodeByteString] at hd'; cases hd'
        subst hv
        simp only [pyInt, bind, Except.bind, Except.ok.injEq] at hone
        subst hone
        simp only [beq_iff_eq, MarksOne]
        constructor
        · rintro rfl; exact .inl rfl
        · rintro (h | ⟨s, (h | h), _⟩)
          · injection h
          · rcases h with h | ⟨_, h, _⟩ <;> cases h
          · cases h
      | str s =>
        have hv := decode_text hd'
        rw [pyStr] at hdg
        simp only [pyInt, bind, Except.bind] at hone
        have uniq : ∀ t, TextOf env v t ∨ v = .num t → t = s := by
          rintro t (ht | ht)
          · rcases hv with h1 | ⟨b, h1, hb⟩ <;> rcases ht with hs | ⟨b', hs, hb'⟩
            · rw [h1] at hs; injection hs with hs; exact hs.symm
            · rw [h1] at hs; cases hs
            · rw [h1] at hs; cases hs
            · rw [h1] at hs; injection hs with hs; subst hs; rw [hb] at hb'; injection hb' with hb'
              exact hb'.symm
          · rcases hv with h1 | ⟨b, h1, hb⟩ <;> (rw [h1] at ht; cases ht)
        cases hi : env.int s with
        | none => rw [hi] at hone; cases hone
        | some n =>
          rw [hi] at hone
          simp only [Except.ok.injEq] at hone
          subst hone
          simp only [beq_iff_eq]
          constructor
          · rintro rfl; exact .inr ⟨s, .inl hv, hdg, hi⟩
          · rintro (h | ⟨t, ht, _, h2⟩)
            · subst h; rcases hv with h | ⟨_, h, _⟩ <;> cases h
            · rw [uniq t ht, hi] at h2; injection h2
      | num s =>
        have hv : v = .num s := by
          cases v with
          | num m => simpa [decodeByteString] using hd'
          | bytes b => simp only [decodeByteString] at hd'; split at hd' <;> cases hd'
          | arrO b => simp only [decodeByteString] at hd'; split at hd' <;> cases hd'
          | arrS b =>
            simp only [decodeByteString] at hd'
            split at hd'
            · split at hd' <;> cases hd'
            · cases hd'
          | _ => simp only [decodeByteString] at hd'; cases hd'
        subst hv
        rw [pyStr] at hdg
        simp only [pyInt, bind, Except.bind] at hone
        cases hi : env.int s with
        | none => rw [hi] at hone; cases hone
        | some n =>
          rw [hi] at hone
          simp only [Except.ok.injEq] at hone
          subst hone
          simp only [beq_iff_eq]
          constructor
          · rintro rfl; exact .inr ⟨s, .inr rfl, hdg, hi⟩
          · rintro (h | ⟨t, (ht | ht), _, h2⟩)
            · cases h
            · rcases ht with h | ⟨_, h, _⟩ <;> cases h
            · injection ht with ht; subst ht; rw [hi] at h2; injection h2
      | _ => simp only [pyInt, bind, Except.bind] at hone; cases hone
    · rw [if_neg hdg] at hone
      injection hone with hone
      subst hone
      simp only [Bool.false_eq_true, false_iff]
      rintro (h | ⟨s, (h | h), h2, h3⟩)
      · subst h
        simp only [decodeByteString] at hd'
        injection hd' with hd'
        subst hd'
        exact hdg (pyStr_one hdig)
      · have : d = .str s := by
          rcases h with h | ⟨b, h, hb⟩
          · subst h; simp only [decodeByteString] at hd'; injection hd' with hd'; exact hd'.symm
          · subst h; simp only [decodeByteString, hb] at hd'; injection hd' with hd'; exact hd'.symm
        subst this
        exact hdg h2
      · subst h
        simp only [decodeByteString] at hd'
        injection hd' with hd'
        subst hd'
        exact hdg h2
  rw [hone, W.lift_ok_bind]
  cases one with
  | true =>
    rw [if_pos rfl, findings_record, ha]
    exact ⟨_, _, rfl, fun _ => rfl, fun hm => absurd (key.1 rfl) hm⟩
  | false =>
    rw [if_neg (by simp), findings_record, ha]
    exact ⟨_, _, rfl, fun hm => absurd (key.2 hm) (by simp), fun _ => rfl⟩

/-- C17, elsewhere (the root and named types): `signal` is only noted as not checked. -/
theorem signal_elsewhere {env : Env} {mgr : Manager} {mins : Dict (Str × Str) Int}
    {f : H5File} (h : (validateOpen env mgr mins f).res = .ok ()) {it owner : Item}
    (hit : it ∈ (catalog env f).log) {v : Val} (hobj : it.obj = .val v) {a : Str}
    (ha : it.addr = some a) (hn : it.name = s%"signal") (hp : it.parent = some owner)
    (ho : isHdf5Dataset owner.obj = false) (hg : isHdf5Group owner.obj = false) :
    attrFindings (validateOpen env mgr mins f).log it.oid =
      [⟨some a, s%"attribute value", .todo, s%"implement"⟩] := by
  obtain ⟨hok, e⟩ := attrFindings_run h hit
  rw [attrFindings, e]
  rw [attributeVerify_attr h hit hobj ha hp, hn] at hok ⊢
  simp only [List.cons.injEq, Char.reduceEq, false_and, if_false, if_true, reduceCtorEq,
    and_false, signalHandler, hobj, ho, Bool.false_eq_true] at hok ⊢
  rw [W.bind_ok_iff] at hok
  obtain ⟨d, hd, hok⟩ := hok
  rw [W.lift_res] at hd
  rw [hd, W.lift_ok_bind]
  cases hob : owner.obj with
  | node n =>
    cases n with
    | group n a k => rw [hob] at hg; cases hg
    | dataset n a k => rw [hob] at ho; cases ho
    | datatype n a => simp only [genericHandler, findings_record, ha]; rfl
  | _ => simp only [genericHandler, findings_record, ha]; rfl

end Punx
