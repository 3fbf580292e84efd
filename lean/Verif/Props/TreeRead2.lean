import Verif.Props.TreeRead

/-!
# C122: the tree report can be read back (lines)
-/

namespace Punx

open Spec

theorem spaces_takeWhile (d : Nat) {t : Str} (h : t.head? ≠ some ' ') :
    (spaces d ++ t).takeWhile (· == ' ') = spaces d ∧ (spaces d ++ t).dropWhile (· == ' ') = t := by
  unfold spaces
  generalize 2 * d = n
  induction n with
  | zero =>
    cases t with
    | nil => simp
    | cons c t =>
      have : c ≠ ' ' := by simpa using h
      simp [this]
  | succ n ih => simp [List.replicate_succ, ih]

theorem takeWhile_stop {p : Char → Bool} {a b : Str} (ha : ∀ c ∈ a, p c = true)
    (hb : ∀ c, b.head? = some c → p c = false) : (a ++ b).takeWhile p = a := by
  induction a with
  | nil =>
    cases b with
    | nil => rfl
    | cons c b => simp [hb c rfl]
  | cons c a ih =>
    rw [List.cons_append, List.takeWhile_cons, ha c (by simp), if_pos rfl,
      ih fun x hx => ha x (List.mem_cons_of_mem _ hx)]

/-- An attribute is read. -/
theorem readLine_attr {env : Env} {d : Nat} {l : TLine} {a : Str × Val} (h : ShowsAttr env d l a)
    (ha : ' ' ∉ a.1) : ∃ t, readLine l.text = .attr a.1 t ∧ ValueText env a.2 t := by
  obtain ⟨_, t, hv, ht⟩ := h
  refine ⟨t, ?_, hv⟩
  have h1 : l.text = spaces (d + 1) ++ ('@' :: a.1 ++ s%" = " ++ t) := by
    rw [ht, ← spaces_succ]
    simp
  have h2 := spaces_takeWhile (d + 1) (t := '@' :: a.1 ++ s%" = " ++ t) (by simp)
  unfold readLine
  simp only [h1, h2.1, h2.2]
  have h3 : (a.1 ++ (s%" = " ++ t)).takeWhile (· != ' ') = a.1 :=
    takeWhile_stop (fun c hc => by
      have : c ≠ ' ' := fun h => ha (h ▸ hc)
      simpa using this) (by simp)
  simp only [List.cons_append, List.nil_append] at h3
  simp only [startsWith, List.cons_append, List.append_assoc, List.drop_succ_cons, List.drop_zero,
    List.nil_append, h3]
  simp [List.isPrefixOf]

/-- The line of values is skipped. -/
theorem readLine_array {d : Nat} {l : TLine} (h : ∃ s, l.text = spaces d ++ s%"  __array = " ++ s) :
    readLine l.text = .array := by
  obtain ⟨t, ht⟩ := h
  have h1 : l.text = spaces (d + 1) ++ (s%"__array = " ++ t) := by
    rw [ht, ← spaces_succ]
    simp
  have h2 := spaces_takeWhile (d + 1) (t := s%"__array = " ++ t) (by simp)
  unfold readLine
  simp only [h1, h2.2]
  simp [startsWith]

theorem shownType_head {b : Bool} {d : DataInfo} (h : d.dtype.head? ≠ some ' ') {t : Str} :
    startsWith (':' :: shownType b d ++ s%" = " ++ t) s%": --> " = false ∧
    ':' :: shownType b d ++ s%" = " ++ t ≠ s%": missing external file" := by
  have key : ∀ c, (shownType b d ++ s%" = " ++ t).head? = some c → c = ' ' →
      shownType b d = [] := by
    intro c hc hsp
    subst hsp
    unfold shownType at hc ⊢
    cases b with
    | true => simp at hc
    | false =>
      simp only [Bool.false_eq_true, if_false] at hc ⊢
      split at hc <;> simp at hc
      rename_i hk
      cases hdt : d.dtype with
      | cons x xs => simp_all
      | nil =>
        rw [hdt] at hc
        split at hc <;> simp_all
  generalize hs : shownType b d = ty at key
  cases ty with
  | nil => simp [startsWith, List.isPrefixOf]
  | cons x xs =>
    have hx : x ≠ ' ' := fun h => by
      have := key x rfl h
      cases this
    simp [startsWith, List.isPrefixOf, Ne.symm hx, hx]

/-- The first line of an object is read. -/
theorem readLine_entry {env : Env} {text : Str} {e : TreeEntry} (h : ShowsHeader env text e)
    (hn : PlainName e.name) (hw : PlainWhat env e.what) :
    ∃ k, readLine text = .entry e.depth e.name k ∧ TellsKind env k e.what := by
  obtain ⟨tail, ht, hk⟩ := h
  obtain ⟨hne, hsp, hco, hat⟩ := hn
  obtain ⟨c0, n0, hname⟩ := List.exists_cons_of_ne_nil hne
  have hc0 : c0 ≠ ' ' ∧ c0 ≠ '@' := by
    rw [hname] at hsp hat
    exact ⟨fun h => hsp (by simp [h]), fun h => hat (by simp [h])⟩
  -- the tail starts with a colon or a space
  have htail : ∀ c, tail.head? = some c → c = ':' ∨ c = ' ' := by
    intro c hc
    cases hwh : e.what with
    | group attrs =>
      rw [hwh] at hk
      rcases hk with ⟨_, rfl⟩ | ⟨_, _, _, _, _, rfl⟩
      · simp at hc
      · exact .inl (by simpa using hc.symm)
    | dataset b d =>
      rw [hwh] at hk
      obtain ⟨_, rfl⟩ := hk
      exact .inl (by simpa using hc.symm)
    | soft p => rw [hwh] at hk; subst hk; exact .inl (by simpa using hc.symm)
    | missing => rw [hwh] at hk; subst hk; exact .inl (by simpa using hc.symm)
    | link v =>
      rw [hwh] at hk
      obtain ⟨_, _, rfl⟩ := hk
      exact .inr (by simpa using hc.symm)
  have h2 := spaces_takeWhile e.depth (t := e.name ++ tail) (by rw [hname]; simp [hc0.1])
  have h3 : (e.name ++ tail).takeWhile (fun c => c != ':' && c != ' ') = e.name :=
    takeWhile_stop (fun c hc => by
      have h1 : c ≠ ' ' := fun h => hsp (h ▸ hc)
      have h2 : c ≠ ':' := fun h => hco (h ▸ hc)
      simp [h1, h2]) (fun c hc => by
      rcases htail c hc with rfl | rfl <;> simp)
  have h4 : startsWith (e.name ++ tail) s%"@" = false := by
    rw [hname]; simp [startsWith, List.isPrefixOf, Ne.symm hc0.2]
  have h5 : startsWith (e.name ++ tail) s%"__array = " = false := by
    by_contra hcon
    have hcon : s%"__array = " <+: e.name ++ tail := by simpa [startsWith] using hcon
    obtain ⟨r, hr⟩ := hcon
    have hn : e.name = s%"__array" := by
      rw [← h3, ← hr]
      simp
    have hr2 : tail = s%" = " ++ r := by
      rw [hn] at hr
      simpa using hr.symm
    cases hwh : e.what with
    | group attrs =>
      rw [hwh] at hk
      rcases hk with ⟨_, rfl⟩ | ⟨_, _, _, _, _, rfl⟩ <;> simp at hr2
    | dataset b d =>
      rw [hwh] at hk
      obtain ⟨_, rfl⟩ := hk
      simp at hr2
    | soft p => rw [hwh] at hk; subst hk; simp at hr2
    | missing => rw [hwh] at hk; subst hk; simp at hr2
    | link v =>
      rw [hwh] at hk
      obtain ⟨_, _, rfl⟩ := hk
      simp at hr2
  refine ⟨readKind tail, ?_, ?_⟩
  · rw [List.append_assoc] at ht
    unfold readLine
    simp only [ht, h2.1, h2.2, h3, h4, h5, Bool.false_eq_true, if_false]
    rw [List.drop_left]
    simp [spaces]
  · cases hwh : e.what with
    | group attrs =>
      rw [hwh] at hk hw
      have hno := hw tail hk
      rcases hk with ⟨hk, rfl⟩ | ⟨v, s, k1, k2, k3, rfl⟩
      · exact .inl ⟨hk, rfl⟩
      · have hs : ' ' ∉ s := fun h => hno (List.mem_cons_of_mem _ h)
        have e1 : startsWith (':' :: s) s%" --> " = false := by simp [startsWith, List.isPrefixOf]
        have e2 : startsWith (':' :: s) s%": --> " = false := by
          cases s with
          | nil => simp [startsWith, List.isPrefixOf]
          | cons x xs =>
            have : x ≠ ' ' := fun h => hs (by simp [h])
            simp [startsWith, List.isPrefixOf, Ne.symm this]
        have e3 : ':' :: s ≠ s%": missing external file" := by
          rintro h
          rw [h] at hno
          exact hno (by decide)
        have : readKind (':' :: s) = .group (some s) := by
          unfold readKind
          rw [if_neg (by simp), e1, e2, if_neg (by simp), if_neg (by simp), if_neg e3, if_neg hno]
          rfl
        rw [this]
        exact .inr ⟨v, s, k1, k2, k3, rfl⟩
    | dataset b d =>
      rw [hwh] at hk hw
      obtain ⟨v, rfl⟩ := hk
      have hh := shownType_head (b := b) hw (t := v)
      have e1 : startsWith (':' :: shownType b d ++ s%" = " ++ v) s%" --> " = false := by
        simp [startsWith, List.isPrefixOf]
      have : readKind (':' :: shownType b d ++ s%" = " ++ v) = .dataset (shownType b d ++ s%" = " ++ v) := by
        unfold readKind
        rw [if_neg (by simp), e1, hh.1, if_neg (by simp), if_neg (by simp), if_neg hh.2,
          if_pos (by simp)]
        rfl
      rw [this]
      exact ⟨v, rfl⟩
    | soft p =>
      rw [hwh] at hk
      subst hk
      have : readKind (s%": --> " ++ p) = .soft p := by
        unfold readKind
        simp [startsWith, List.isPrefixOf]
      rw [this]
      rfl
    | missing =>
      rw [hwh] at hk
      subst hk
      have : readKind s%": missing external file" = .missing := by decide
      rw [this]
      trivial
    | link v =>
      rw [hwh] at hk
      obtain ⟨t, htt, rfl⟩ := hk
      have : readKind (s%" --> " ++ t) = .link t := by
        unfold readKind
        simp [startsWith, List.isPrefixOf]
      rw [this]
      exact htt

/-- The lines below the first one of an object. -/
theorem read_rest {env : Env} {sa : Bool} {d : Nat} {arr as : List TLine} {attrs : List (Str × Val)}
    (harr : ∀ l ∈ arr, ∃ s, l.text = spaces d ++ s%"  __array = " ++ s)
    (has : if sa then List.Forall₂ (ShowsAttr env d) as attrs else as = [])
    (hp : PlainAttrs attrs) :
    (∀ l ∈ arr ++ as, isEntry (readLine l.text) = false) ∧
    TellsAttrs env sa (((arr ++ as).map fun l => readLine l.text).filterMap attrOf) attrs := by
  have h1 : (arr.map fun l => readLine l.text).filterMap attrOf = [] := by
    rw [List.filterMap_eq_nil_iff]
    intro x hx
    obtain ⟨l, hl, rfl⟩ := List.mem_map.1 hx
    rw [readLine_array (harr l hl)]
    rfl
  rw [List.map_append, List.filterMap_append, h1, List.nil_append]
  cases sa with
  | false =>
    simp only [Bool.false_eq_true, if_false] at has
    subst has
    refine ⟨?_, rfl⟩
    intro l hl
    rw [List.append_nil] at hl
    rw [readLine_array (harr l hl)]
    rfl
  | true =>
    simp only [if_true] at has
    have h2 : (∀ l ∈ as, isEntry (readLine l.text) = false) ∧
        List.Forall₂ (fun (r : Str × Str) (a : Str × Val) => r.1 = a.1 ∧ ValueText env a.2 r.2)
          ((as.map fun l => readLine l.text).filterMap attrOf) attrs := by
      induction has with
      | nil => exact ⟨by simp, .nil⟩
      | cons ha _ ih =>
        obtain ⟨t, e1, e2⟩ := readLine_attr ha (hp _ (by simp))
        obtain ⟨i1, i2⟩ := ih fun a ha => hp a (List.mem_cons_of_mem _ ha)
        refine ⟨?_, ?_⟩
        · intro l hl
          rcases List.mem_cons.1 hl with rfl | hl
          · rw [e1]; rfl
          · exact i1 l hl
        · simp only [List.map_cons, e1, List.filterMap_cons, attrOf]
          exact .cons ⟨rfl, e2⟩ i2
    refine ⟨?_, h2.2⟩
    intro l hl
    rcases List.mem_append.1 hl with hl | hl
    · rw [readLine_array (harr l hl)]
      rfl
    · exact h2.1 l hl

theorem readLines_skip {at_ : List Str} {a b : List Str} (h : ∀ l ∈ a, isEntry (readLine l) = false) :
    readLines at_ (a ++ b) = readLines at_ b := by
  induction a with
  | nil => rfl
  | cons l a ih =>
    rw [List.cons_append, readLines]
    have := h l (by simp)
    split
    · rename_i h1
      rw [h1] at this
      cases this
    · exact ih fun x hx => h x (List.mem_cons_of_mem _ hx)

theorem attrsBelow_append {a b : List Str} (h : ∀ l ∈ a, isEntry (readLine l) = false)
    (hb : ∀ l, b.head? = some l → isEntry (readLine l) = true) :
    attrsBelow (a ++ b) = (a.map readLine).filterMap attrOf := by
  unfold attrsBelow
  congr 1
  rw [List.map_append]
  induction a with
  | nil =>
    cases b with
    | nil => rfl
    | cons l b => simp [hb l rfl]
  | cons l a ih =>
    rw [List.map_cons, List.cons_append, List.takeWhile_cons, h l (by simp)]
    simp only [Bool.not_false, if_true]
    rw [ih fun x hx => h x (List.mem_cons_of_mem _ hx)]

/-- The lines that are left start with an object. -/
theorem head_entry {env : Env} {sa : Bool} {blocks : List (List TLine)} {es : List TreeEntry}
    (h : List.Forall₂ (ShowsEntry env sa) blocks es)
    (hp : ∀ e ∈ es, PlainName e.name ∧ PlainWhat env e.what ∧ PlainAttrs e.attrs) :
    ∀ l, (blocks.flatten.map TLine.text).head? = some l → isEntry (readLine l) = true := by
  cases h with
  | nil => simp
  | cons h1 _ =>
    obtain ⟨hd, arr, as, rfl, _, hh, _⟩ := h1
    obtain ⟨k, hk, _⟩ := readLine_entry hh (hp _ (by simp)).1 (hp _ (by simp)).2.1
    intro l hl
    simp at hl
    rw [← hl, hk]
    rfl

/-- All lines are read. -/
theorem readLines_blocks {env : Env} {sa : Bool} {blocks : List (List TLine)} {es : List TreeEntry}
    (h : List.Forall₂ (ShowsEntry env sa) blocks es)
    (hp : ∀ e ∈ es, PlainName e.name ∧ PlainWhat env e.what ∧ PlainAttrs e.attrs) (at_ : List Str) :
    List.Forall₂ (fun (r : ReadEntry) (x : List Str × TreeEntry) => Tells env sa r x.1 x.2.what x.2.attrs)
      (readLines at_ (blocks.flatten.map TLine.text)) (withPaths at_ es) := by
  induction h generalizing at_ with
  | nil => exact .nil
  | @cons block e blocks es h1 h2 ih =>
    have hp' : ∀ e ∈ es, PlainName e.name ∧ PlainWhat env e.what ∧ PlainAttrs e.attrs :=
      fun x hx => hp x (List.mem_cons_of_mem _ hx)
    obtain ⟨hd, arr, as, rfl, _, hh, _, harr, has⟩ := h1
    obtain ⟨k, hk, hkind⟩ := readLine_entry hh (hp e (by simp)).1 (hp e (by simp)).2.1
    obtain ⟨r1, r2⟩ := read_rest (fun l hl => (harr l hl).2.1) has (hp e (by simp)).2.2
    have r1' : ∀ l ∈ (arr ++ as).map TLine.text, isEntry (readLine l) = false := by
      intro l hl
      obtain ⟨x, hx, rfl⟩ := List.mem_map.1 hl
      exact r1 x hx
    have e1 : ((hd :: arr ++ as) :: blocks).flatten.map TLine.text =
        hd.text :: ((arr ++ as).map TLine.text ++ blocks.flatten.map TLine.text) := by
      simp
    rw [e1, readLines]
    simp only [hk]
    rw [readLines_skip r1', attrsBelow_append r1' (head_entry h2 hp'), withPaths]
    refine .cons ⟨rfl, hkind, ?_⟩ (ih hp' _)
    rw [List.map_map]
    exact r2

/-- **C122**: the report of a file whose names are plain can be read back: what is read is in the file,
at this path, of this kind and with these attributes, and everything in the file is read. -/
theorem tree_read_back {env : Env} {shown : Int} {sa : Bool} {fname : Str} {f : H5File} {b : Bool}
    {ls : List Str} (hb : isNeXusFile env (.hdf5 f) = .ok (some b)) (hf : PlainFile env b f)
    (h : treeReport env shown sa fname (.hdf5 f) = .ok (some ls)) :
    TellsAttrs env sa (readTree ls).1 f.attrs ∧
    (∀ r ∈ (readTree ls).2, ∃ w as, ShownAt env b f.kids r.path w as ∧ Tells env sa r r.path w as) ∧
    ∀ p w as, ShownAt env b f.kids p w as → ∃ r ∈ (readTree ls).2, Tells env sa r p w as := by
  obtain ⟨f', b', tl, e1, e2, e3, rfl⟩ := treeReport_ok.1 h
  injection e1 with e1
  subst e1
  rw [hb] at e2
  injection e2 with e2
  subst e2
  simp only [Option.getD_some] at e3
  obtain ⟨blocks, rfl, hbl⟩ := tree_shows_all _ _ _ _ e3
  rw [outlineFile] at hbl
  cases hbl with
  | @cons block _ blocks _ h1 h2 =>
  obtain ⟨hd, arr, as, rfl, _, hh, _, harr, has⟩ := h1
  have harr0 : arr = [] := by
    rw [List.eq_nil_iff_forall_not_mem]
    intro l hl
    obtain ⟨_, _, _, _, hw⟩ := harr l hl
    cases hw
  subst harr0
  have hpl := placed_members env b 0 f.kids
  have hpl2 := hpl.2 [] [] rfl rfl
  -- names in the outline are plain
  have hp : ∀ e ∈ arrange (outlineMembers env b 1 f.kids),
      PlainName e.name ∧ PlainWhat env e.what ∧ PlainAttrs e.attrs := by
    have key : ∀ (es : List TreeEntry) (st : List Str) (P : List Str × TreeEntry → Prop),
        (∀ x ∈ withPaths st es, P x) → ∀ e ∈ es, ∃ p, P (p ++ [e.name], e) := by
      intro es
      induction es with
      | nil => simp
      | cons e es ih =>
        intro st P hP x hx
        rcases List.mem_cons.1 hx with rfl | hx
        · exact ⟨_, hP _ (by rw [withPaths]; exact List.mem_cons_self ..)⟩
        · exact ih _ P (fun y hy => hP y (by rw [withPaths]; exact List.mem_cons_of_mem _ hy)) x hx
    intro e he
    obtain ⟨p, q, e1, e2⟩ := key _ [] _ hpl2.1 e he
    have := hf.2 _ _ _ e2
    refine ⟨this.1 _ ?_, this.2⟩
    simp only [List.nil_append] at e1
    rw [← e1]
    simp
  obtain ⟨r1, r2⟩ := read_rest (arr := []) (by simp) has hf.1
  have r1' : ∀ l ∈ as.map TLine.text, isEntry (readLine l) = false := by
    intro l hl
    obtain ⟨x, hx, rfl⟩ := List.mem_map.1 hl
    exact r1 x (by simpa using hx)
  have hread := readLines_blocks h2 hp []
  have e0 : (List.map TLine.text ((hd :: [] ++ as) :: blocks).flatten).drop 1 =
      as.map TLine.text ++ blocks.flatten.map TLine.text := by simp
  unfold readTree
  simp only [e0, readLines_skip r1', attrsBelow_append r1' (head_entry h2 hp)]
  refine ⟨?_, ?_, ?_⟩
  · rw [List.map_map]
    exact r2
  · intro r hr
    obtain ⟨x, hx, hxt⟩ := forall₂_mem_left hread hr
    obtain ⟨q, e1, e2⟩ := hpl2.1 x hx
    simp only [List.nil_append] at e1
    obtain ⟨t1, t2, t3⟩ := hxt
    rw [← e1, ← t1] at e2
    exact ⟨_, _, e2, rfl, t2, t3⟩
  · intro p w as' hs
    obtain ⟨x, hx, e1, rfl, rfl⟩ := hpl2.2 p w as' hs
    obtain ⟨r, hr, hxt⟩ := forall₂_mem_left (List.Forall₂.flip (R := fun (x : List Str × TreeEntry) (r : ReadEntry) => Tells env sa r x.1 x.2.what x.2.attrs) hread) hx
    simp only [List.nil_append] at e1
    rw [e1] at hxt
    exact ⟨r, hr, hxt⟩

end Punx
