import Verif.Spec.Unused
import Verif.Props.Completes3
import Verif.Props.Catalog2
import Verif.Props.Reorder
import Verif.Model.Cli
import Verif.Props.DefaultPlot
import Verif.Props.AppDef

/-!
# Definitions that a file does not mention (C110)
-/

namespace Punx
open Spec

theorem Spec.InTree.trans {a b c : Node} (h : InTree a b) (k : InTree b c) : InTree a c := by
  induction h with
  | self => exact k
  | member h1 _ ih => exact .member h1 (ih k)

mutual
theorem allNodes_inTree {P : Node → Prop} : (n : Node) → (∀ x, InTree n x → P x) → AllNodes P n
  | .group m a ks, h => by
    rw [AllNodes]
    exact ⟨h _ .self, allKids_inTree ks fun l k hk x hx => h x (.member hk hx)⟩
  | .dataset .., h => by rw [AllNodes]; exact h _ .self
  | .datatype .., h => by rw [AllNodes]; exact h _ .self
theorem allKids_inTree {P : Node → Prop} : (ks : Kids) →
    (∀ l k, (l, some k) ∈ ks.toList → ∀ x, InTree k x → P x) → AllKids P ks
  | .nil, _ => by rw [AllKids]; trivial
  | .cons l k n rest, h => by
    rw [AllKids]
    exact ⟨allNodes_inTree n (h l n (by simp [Kids.toList])),
      allKids_inTree rest fun l k hk => h l k (by simp [Kids.toList, hk])⟩
  | .broken l k rest, h => by
    rw [AllKids]
    exact allKids_inTree rest fun l k hk => h l k (by simp [Kids.toList, hk])
end

/-- The objects of the catalogue are objects of the file. -/
theorem catalog_inTree {env : Env} {f : H5File} (h : (catalog env f).res = .ok ()) {it : Item}
    (hit : it ∈ (catalog env f).log) {m : Node} (hm : it.obj = .node m) : InTree f.root m :=
  catalog_all h (P := InTree f.root)
    (allKids_inTree f.kids fun _ _ hk _ hx => .member hk hx) hit hm

/-- The groups of the catalogue are groups of the file. -/
theorem catalog_group_inTree {env : Env} {f : H5File} (h : (catalog env f).res = .ok ())
    {it : Item} (hit : it ∈ (catalog env f).log) {g : Node} (hg : it.obj.asGroup = some g) :
    InTree f.root g := by
  cases catalogued h hit with
  | root => injection hg with hg; subst hg; exact .self
  | attr j h1 h2 h3 h4 => rw [attrItem_obj] at hg; cases hg
  | @node p n oid h1 h2 =>
    have := catalog_inTree h hit (m := n) rfl
    cases n with
    | group => injection hg with hg; subst hg; exact this
    | dataset => cases hg
    | datatype => cases hg

/-- The attributes of the catalogue are attributes of objects of the file. -/
theorem catalog_val_inTree {env : Env} {f : H5File} (h : (catalog env f).res = .ok ())
    {it : Item} (hit : it ∈ (catalog env f).log) {v : Val} (hv : it.obj = .val v) :
    ∃ n, InTree f.root n ∧ (it.name, v) ∈ n.attrs := by
  cases catalogued h hit with
  | root => cases hv
  | @attr o attrs ka j h1 h2 h3 h4 =>
    rw [attrItem_obj] at hv
    injection hv with hv
    have hn : (attrItem o j ka).name = ka.1 := by unfold attrItem; split <;> rfl
    rw [hn, ← hv]
    rcases h2 with rfl | ⟨env', p, n, oid, rfl⟩
    · injection h3 with h3; subst h3
      exact ⟨f.root, .self, h4⟩
    · injection h3 with h3; subst h3
      exact ⟨n, catalog_inTree h h1 rfl, h4⟩
  | node h1 h2 => cases hv

/-- Classes of catalogued items are mentioned. -/
theorem catalog_class_mentioned {env : Env} {f : H5File} (h : (catalog env f).res = .ok ())
    {it : Item} (hit : it ∈ (catalog env f).log) {c : Str} (hc : it.nxClass = some c) :
    Mentions env f c := by
  cases catalogued h hit with
  | root => cases hc
  | @attr o attrs ka j h1 h2 h3 h4 =>
    have : (attrItem o j ka).nxClass = none := by unfold attrItem; split <;> rfl
    rw [this] at hc; cases hc
  | @node p n oid h1 h2 =>
    have hx := objItem_class hc
    have hin := catalog_inTree h hit (m := n) rfl
    refine .inr (.inr ⟨n, hin, .inl ?_⟩)
    rw [nxClassOf] at hx
    cases hl : n.attrs.lookup s%"NX_class" with
    | none => rw [hl] at hx; cases hx
    | some v =>
      have hm : (s%"NX_class", v) ∈ n.attrs := mem_of_lookup hl
      refine ⟨v, hm, ?_⟩
      rw [hl] at hx
      cases v with
      | str t =>
        simp only at hx
        split at hx
        · injection hx with hx; exact .inl (by rw [hx])
        · cases hx
      | bytes b =>
        simp only at hx
        split at hx
        · rename_i t ht
          split at hx
          · injection hx with hx; exact .inr ⟨b, rfl, by rw [ht, hx]⟩
          · cases hx
        · cases hx
      | _ => cases hx

/-! ## the checks do not see other definitions -/

/-- The same context with other classes and another default of `minOccurs`. -/
def Ctx.other (ctx : Ctx) (cl : Dict Str ClassDef) (b : Option Bool) : Ctx :=
  { ctx with mgr := { ctx.mgr with classes := cl, fieldMinOccursIsOne := b } }

theorem itemNameVerify_other (ctx : Ctx) (cl : Dict Str ClassDef) (b : Option Bool) (seen : List Str)
    (it : Item) : itemNameVerify (ctx.other cl b) seen it = itemNameVerify ctx seen it := rfl

theorem findDefaultPlot_other (ctx : Ctx) (cl : Dict Str ClassDef) (b : Option Bool) :
    findDefaultPlot (ctx.other cl b) = findDefaultPlot ctx := by
  have h3 : ∀ l h5 niac, v3Loop (ctx.other cl b) h5 niac l = v3Loop ctx h5 niac l := by
    intro l
    induction l with
    | nil => intro _ _; rfl
    | cons x l ih =>
      intro h5 niac
      have hs : v3Step (ctx.other cl b) x = v3Step ctx x := rfl
      simp only [v3Loop, ih, hs]
  have hi : ∀ l rev, v2Items (ctx.other cl b) rev l = v2Items ctx rev l := by
    intro l
    induction l with
    | nil => intro _; rfl
    | cons x l ih =>
      intro rev
      have hs : v2Item (ctx.other cl b) rev x = v2Item ctx rev x := rfl
      simp only [v2Items, ih, hs]
  have h2 : ∀ l rev, v2Scan (ctx.other cl b) rev l = v2Scan ctx rev l := by
    intro l
    induction l with
    | nil => intro _; rfl
    | cons x l ih => intro rev; simp only [v2Scan, ih, hi]
  unfold findDefaultPlot defaultPlotV3 defaultPlotV2
  simp only [h3, h2]
  rfl

theorem targetHandler_other (ctx : Ctx) (cl : Dict Str ClassDef) (b : Option Bool) (it : Item) :
    targetHandler (ctx.other cl b) it = targetHandler ctx it := by
  have h : ∀ l a, targetLoop (ctx.other cl b) it a l = targetLoop ctx it a l := by
    intro l
    induction l with
    | nil => intro _; rfl
    | cons x l ih =>
      intro a
      have hs : matchKey (ctx.other cl b) x = matchKey ctx x := rfl
      simp only [targetLoop, ih, hs]
      rfl
  unfold targetHandler
  simp only [h]
  rfl

theorem signalHandler_other (ctx : Ctx) (cl : Dict Str ClassDef) (b : Option Bool) (it par : Item) :
    signalHandler (ctx.other cl b) it par = signalHandler ctx it par := rfl

theorem axesHandler_other (ctx : Ctx) (cl : Dict Str ClassDef) (b : Option Bool) (it par : Item) :
    axesHandler (ctx.other cl b) it par = axesHandler ctx it par := rfl

theorem nxclassHandler_other {ctx : Ctx} {cl : Dict Str ClassDef} {b : Option Bool} {it : Item}
    (h : ∀ v c, it.obj = .val v → TextOf ctx.env v c →
      Dict.get? cl c = Dict.get? ctx.mgr.classes c) :
    nxclassHandler (ctx.other cl b) it = nxclassHandler ctx it := by
  unfold nxclassHandler
  cases ho : it.obj with
  | val v =>
    show (W.lift (decodeByteString ctx.env v) >>= _) = (W.lift (decodeByteString ctx.env v) >>= _)
    cases hd : decodeByteString ctx.env v with
    | error e => rfl
    | ok d =>
      rw [W.lift_ok_bind, W.lift_ok_bind]
      cases d with
      | str c =>
        show (match Dict.get? cl c with | none => _ | some d => _) = _
        rw [h v c ho (decode_text hd)]
        rfl
      | _ => rfl
  | _ => rfl

theorem attributeVerify_other {ctx : Ctx} {cl : Dict Str ClassDef} {b : Option Bool} {it : Item}
    (h : it.name = s%"NX_class" → ∀ v c, it.obj = .val v → TextOf ctx.env v c →
      Dict.get? cl c = Dict.get? ctx.mgr.classes c) :
    attributeVerify (ctx.other cl b) it = attributeVerify ctx it := by
  unfold attributeVerify
  by_cases hn : it.name = s%"NX_class"
  · simp only [hn, if_true, nxclassHandler_other (h hn)]
  · simp only [hn, if_false, targetHandler_other, signalHandler_other,
      axesHandler_other]

theorem usedAsBaseClass_congr {m m' : Manager} {c : Str}
    (h : Dict.get? m.classes c = Dict.get? m'.classes c) :
    usedAsBaseClass m c = usedAsBaseClass m' c := by
  unfold usedAsBaseClass
  rw [h]

theorem nxClassAttribute_other {ctx : Ctx} {cl : Dict Str ClassDef} {b : Option Bool} {it : Item} {c : Str}
    (h : Dict.get? cl c = Dict.get? ctx.mgr.classes c) :
    nxClassAttribute (ctx.other cl b) it c = nxClassAttribute ctx it c := by
  unfold nxClassAttribute
  have h1 : Dict.get? (ctx.other cl b).mgr.classes c = Dict.get? ctx.mgr.classes c := h
  rw [usedAsBaseClass_congr h1, h1]

theorem validateGroup_other {ctx : Ctx} {cl : Dict Str ClassDef} {b : Option Bool} {it : Item}
    (hr : Dict.get? cl s%"NXroot" = Dict.get? ctx.mgr.classes s%"NXroot")
    (h : ∀ c, it.nxClass = some c → Dict.get? cl c = Dict.get? ctx.mgr.classes c) :
    validateGroup (ctx.other cl b) it = validateGroup ctx it := by
  have key : ∀ c, Dict.get? cl c = Dict.get? ctx.mgr.classes c →
      (do
        nxClassAttribute (ctx.other cl b) it c
        match Dict.get? (ctx.other cl b).mgr.classes c with
        | none => record it s%"NeXus base class" .error (s%"unknown NeXus base class: " ++ c)
        | some cls => do
          groupAttributes (ctx.other cl b) it cls
          groupChildren (ctx.other cl b) it cls
          baseItems (ctx.other cl b) it c cls
          record it s%"NeXus base class" .todo (c ++ s%": more validations needed")) =
      (do
        nxClassAttribute ctx it c
        match Dict.get? ctx.mgr.classes c with
        | none => record it s%"NeXus base class" .error (s%"unknown NeXus base class: " ++ c)
        | some cls => do
          groupAttributes ctx it cls
          groupChildren ctx it cls
          baseItems ctx it c cls
          record it s%"NeXus base class" .todo (c ++ s%": more validations needed")) := by
    intro c hc
    have h1 : Dict.get? (ctx.other cl b).mgr.classes c = Dict.get? ctx.mgr.classes c := hc
    rw [nxClassAttribute_other hc, h1]
    rfl
  unfold validateGroup
  by_cases h1 : it.classpath = nonNeXus
  · rw [if_pos h1, if_pos h1]
  rw [if_neg h1, if_neg h1]
  by_cases h2 : startsWith it.classpath s%"/NX" = true
  · rw [if_pos h2]
    cases hx : it.nxClass with
    | none => rfl
    | some c =>
      simp only [W.lift_ok_bind]
      exact key c (h c hx)
  · rw [if_neg h2]
    by_cases h3 : it.classpath = []
    · rw [if_pos h3]
      simp only [W.lift_ok_bind]
      exact key _ hr
    · rw [if_neg h3]
      rfl

theorem appDefVerify_other {ctx : Ctx} {cl : Dict Str ClassDef} {b : Option Bool} {it : Item}
    (hb : b = ctx.mgr.fieldMinOccursIsOne)
    (h : ∀ g c, it.obj.asGroup = some g → Declares ctx.env ctx.file g c →
      Dict.get? cl c = Dict.get? ctx.mgr.classes c) :
    appDefVerify (ctx.other cl b) it = appDefVerify ctx it := by
  subst hb
  unfold appDefVerify
  have h0 : appDefName (ctx.other cl ctx.mgr.fieldMinOccursIsOne) it = appDefName ctx it := rfl
  rw [h0]
  cases hn : appDefName ctx it with
  | error e => rfl
  | ok c =>
    obtain ⟨g, hg, hd⟩ := appDefName_ok hn
    have h1 : Dict.get? (ctx.other cl ctx.mgr.fieldMinOccursIsOne).mgr.classes c = Dict.get? ctx.mgr.classes c :=
      h g c hg hd
    simp only [W.lift_ok_bind, h1]
    cases Dict.get? ctx.mgr.classes c with
    | none => rfl
    | some ad =>
      simp only
      have hf : ∀ g i l, appFields (ctx.other cl ctx.mgr.fieldMinOccursIsOne) it g c i l =
          appFields ctx it g c i l := by
        intro g i l
        induction l generalizing i with
        | nil => rfl
        | cons x l ih => rw [appFields, appFields, ih]; rfl
      simp only [hf]

theorem defaultPlotVerify_other {ctx : Ctx} {cl : Dict Str ClassDef} {b : Option Bool}
    (h : Dict.get? cl s%"NXentry" = Dict.get? ctx.mgr.classes s%"NXentry")
    (mins : Dict (Str × Str) Int) :
    defaultPlotVerify (ctx.other cl b) mins = defaultPlotVerify ctx mins := by
  unfold defaultPlotVerify
  have h0 : defaultPlotRequired (ctx.other cl b).mgr mins = defaultPlotRequired ctx.mgr mins := by
    unfold defaultPlotRequired
    have h1 : Dict.get? (ctx.other cl b).mgr.classes s%"NXentry" =
        Dict.get? ctx.mgr.classes s%"NXentry" := h
    rw [h1]
  rw [h0, findDefaultPlot_other]
  rfl

theorem W.forEach_congr {ε α : Type} {xs : List α} {f g : α → W ε Unit} (h : ∀ x ∈ xs, f x = g x) :
    W.forEach xs f = W.forEach xs g := by
  induction xs with
  | nil => rfl
  | cons x xs ih =>
    rw [W.forEach_cons, W.forEach_cons, h x (by simp), ih fun y hy => h y (by simp [hy])]

theorem step1_congr {ctx ctx' : Ctx} {items : List Item}
    (h : ∀ it ∈ items, ∀ seen, nameAndAttribute ctx seen it = nameAndAttribute ctx' seen it)
    (done : List Eff) : step1 ctx done items = step1 ctx' done items := by
  induction items generalizing done with
  | nil => rfl
  | cons it rest ih =>
    simp only [step1]
    rw [h it (by simp)]
    congr 1
    funext _
    exact ih (fun x hx => h x (by simp [hx])) _


/-! ## another default of `minOccurs` changes comments only -/

/-- An effect without the comment. -/
def Eff.bare : Eff → Eff
  | .found o k x => .found o k { x with comment := [] }
  | .setMin c g n => .setMin c g n

/-- The same but for comments. -/
def Uncommented {α : Type} (w w' : W Eff α) : Prop :=
  w.res = w'.res ∧ w.log.map Eff.bare = w'.log.map Eff.bare

theorem Uncommented.refl {α : Type} (w : W Eff α) : Uncommented w w := ⟨rfl, rfl⟩

theorem Uncommented.of_eq {α : Type} {w w' : W Eff α} (h : w = w') : Uncommented w w' := h ▸ .refl w

theorem Uncommented.bind {α β : Type} {x x' : W Eff α} {k k' : α → W Eff β} (h : Uncommented x x')
    (hk : ∀ r, Uncommented (k r) (k' r)) : Uncommented (x >>= k) (x' >>= k') := by
  obtain ⟨l, r⟩ := x
  obtain ⟨l', r'⟩ := x'
  obtain ⟨h1, h2⟩ := h
  simp only at h1 h2
  subst h1
  cases r with
  | error e => exact ⟨rfl, h2⟩
  | ok r =>
    refine ⟨(hk r).1, ?_⟩
    show (l ++ (k r).log).map Eff.bare = (l' ++ (k' r).log).map Eff.bare
    rw [List.map_append, List.map_append, h2, (hk r).2]

theorem Uncommented.record (it : Item) (k : Str) (st : Status) (c c' : Str) :
    Uncommented (record it k st c) (record it k st c') := ⟨rfl, rfl⟩

theorem Uncommented.forEach {α : Type} {xs : List α} {k k' : α → W Eff Unit}
    (h : ∀ x ∈ xs, Uncommented (k x) (k' x)) : Uncommented (W.forEach xs k) (W.forEach xs k') := by
  induction xs with
  | nil => exact .refl _
  | cons x xs ih =>
    exact .bind (h x (by simp)) fun _ => ih fun y hy => h y (by simp [hy])

theorem findings_bare (l : List Eff) :
    (findings (l.map Eff.bare)).map lineOf = (findings l).map lineOf := by
  induction l with
  | nil => rfl
  | cons e l ih =>
    cases e with
    | found o k x =>
      show lineOf _ :: (findings (l.map Eff.bare)).map lineOf = lineOf x :: (findings l).map lineOf
      rw [ih]
      rfl
    | setMin c g n => exact ih

theorem Uncommented.lines {α : Type} {w w' : W Eff α} (h : Uncommented w w') : lines w = lines w' := by
  rw [Punx.lines, Punx.lines, ← findings_bare, h.2, findings_bare]

theorem applyMins_bare (mins : Dict (Str × Str) Int) (l : List Eff) :
    applyMins mins (l.map Eff.bare) = applyMins mins l := by
  unfold applyMins
  induction l generalizing mins with
  | nil => rfl
  | cons e l ih =>
    cases e with
    | found o k x => exact ih mins
    | setMin c g n => exact ih _

theorem appField_same {ctx : Ctx} {cl : Dict Str ClassDef} {b : Option Bool} {it : Item}
    (hb : b = none ↔ ctx.mgr.fieldMinOccursIsOne = none) (g : Node) (c : Str) (i : Nat)
    (x : Str × FieldSpec) : Uncommented (appField (ctx.other cl b) it g c i x) (appField ctx it g c i x) := by
  unfold appField
  refine .bind (.of_eq rfl) fun o => .bind (.of_eq rfl) fun v => .bind (.refl _) fun _ => ?_
  split
  · refine .bind (.of_eq rfl) fun found => ?_
    cases b with
    | none =>
      have hr : fieldRequired ctx.mgr = .error .keyError := by rw [fieldRequired, hb.1 rfl]
      rw [hr]
      exact .refl _
    | some b =>
      cases hm : ctx.mgr.fieldMinOccursIsOne with
      | none => exact absurd (hb.2 hm) (by simp)
      | some b' =>
        have hr : fieldRequired (ctx.other cl (some b)).mgr = .ok b := rfl
        have hr' : fieldRequired ctx.mgr = .ok b' := by rw [fieldRequired, hm]
        rw [hr, hr']
        simp only [W.lift_ok_bind]
        cases found with
        | none => exact .bind (.refl _) fun _ => .record _ _ _ _ _
        | some e =>
          cases e with
          | none => exact .refl _
          | some e => exact .record _ _ _ _ _
  · exact .refl _

theorem appDefVerify_same {ctx : Ctx} {cl : Dict Str ClassDef} {b : Option Bool} {it : Item}
    (hb : b = none ↔ ctx.mgr.fieldMinOccursIsOne = none)
    (h : ∀ g c, it.obj.asGroup = some g → Declares ctx.env ctx.file g c →
      Dict.get? cl c = Dict.get? ctx.mgr.classes c) :
    Uncommented (appDefVerify (ctx.other cl b) it) (appDefVerify ctx it) := by
  unfold appDefVerify
  have h0 : appDefName (ctx.other cl b) it = appDefName ctx it := rfl
  rw [h0]
  cases hn : appDefName ctx it with
  | error e => exact .refl _
  | ok c =>
    obtain ⟨g, hg, hd⟩ := appDefName_ok hn
    have h1 : Dict.get? (ctx.other cl b).mgr.classes c = Dict.get? ctx.mgr.classes c :=
      h g c hg hd
    simp only [W.lift_ok_bind, h1]
    cases Dict.get? ctx.mgr.classes c with
    | none => exact .refl _
    | some ad =>
      simp only
      have hf : ∀ l i, Uncommented (appFields (ctx.other cl b) it g c i l) (appFields ctx it g c i l) := by
        intro l
        induction l with
        | nil => intro i; exact .refl _
        | cons x l ih => intro i; exact .bind (appField_same hb g c i x) fun _ => ih (i + 1)
      have key : Uncommented
          (match Dict.values ad.groups with
            | [] => W.fail .indexError
            | entry :: _ =>
              match it.obj.asGroup with
              | none => W.fail .attributeError
              | some g => appFields (ctx.other cl b) it g c 0 entry.fields)
          (match Dict.values ad.groups with
            | [] => W.fail .indexError
            | entry :: _ =>
              match it.obj.asGroup with
              | none => W.fail .attributeError
              | some g => appFields ctx it g c 0 entry.fields) := by
        cases Dict.values ad.groups with
        | nil => exact .refl _
        | cons e es =>
          simp only [hg]
          exact hf _ _
      refine .bind (.refl _) fun _ => ?_
      cases ad.category <;>
        exact .bind (.refl _) fun _ => .bind (.refl _) fun _ => key

/-- What the checks of a file with two sets of definitions have in common. -/
structure AlikeChecks (env : Env) (f : H5File) (ctx ctx' : Ctx) : Prop where
  classpaths : ctx'.classpaths = ctx.classpaths
  mins : ctx'.minOccurs = ctx.minOccurs
  step1 : step1 ctx' [] (Dict.values ctx.classpaths).flatten =
    step1 ctx [] (Dict.values ctx.classpaths).flatten
  step2 : step2 ctx' = step2 ctx
  plot : ∀ mins, defaultPlotVerify ctx' mins = defaultPlotVerify ctx mins
  parents : ∀ k, ∀ it ∈ (Dict.get? ctx.classpaths k).getD [], ∀ p, it.parent = some p →
    ∀ g c, p.obj.asGroup = some g → Declares env f g c →
      Dict.get? ctx'.mgr.classes c = Dict.get? ctx.mgr.classes c

theorem alike_checks {env : Env} {mgr mgr' : Manager} (mins : Dict (Str × Str) Int) {f : H5File}
    (hc : (catalog env f).res = .ok ()) (hi : mgr.itemPats = mgr'.itemPats)
    (hn : mgr.classPats = mgr'.classPats)
    (h : ∀ c, Mentions env f c → Dict.get? mgr.classes c = Dict.get? mgr'.classes c) :
    mkCtx env mgr' mins f = (mkCtx env mgr mins f).other mgr'.classes mgr'.fieldMinOccursIsOne ∧
    AlikeChecks env f (mkCtx env mgr mins f) (mkCtx env mgr' mins f) := by
  have he : mkCtx env mgr' mins f =
      (mkCtx env mgr mins f).other mgr'.classes mgr'.fieldMinOccursIsOne := by
    have : mgr' = { mgr with
        classes := mgr'.classes, fieldMinOccursIsOne := mgr'.fieldMinOccursIsOne } := by
      rw [hi, hn]
    conv_lhs => rw [this]
    rfl
  refine ⟨he, ?_⟩
  rw [he]
  generalize hctx : mkCtx env mgr mins f = ctx
  have hm : ∀ c, Mentions env f c → Dict.get? mgr'.classes c = Dict.get? ctx.mgr.classes c := by
    intro c hc; rw [← hctx]; exact (h c hc).symm
  have henv : ctx.env = env := by rw [← hctx]; rfl
  have hfile : ctx.file = f := by rw [← hctx]; rfl
  have hcat : ∀ it ∈ (Dict.values ctx.classpaths).flatten, it ∈ (catalog env f).log := by
    intro it hit
    rw [← hctx] at hit
    exact (classpathTable_perm _).mem_iff.1 hit
  have hadr : ∀ it ∈ Dict.values ctx.addresses, it ∈ (catalog env f).log := by
    intro it hit
    rw [← hctx] at hit
    obtain ⟨⟨k, x⟩, hk, rfl⟩ := List.mem_map.1 hit
    exact (mem_addressTable hk).1
  have hcp : ∀ k, ∀ it ∈ (Dict.get? ctx.classpaths k).getD [], it ∈ (catalog env f).log := by
    intro k it hit
    rw [← hctx] at hit
    have : (Dict.get? (mkCtx env mgr mins f).classpaths k).getD [] = _ :=
      classpathTable_get (catalog env f).log k
    rw [this] at hit
    exact (List.mem_filter.1 hit).1
  have h1 : step1 (ctx.other mgr'.classes mgr'.fieldMinOccursIsOne) []
      (Dict.values ctx.classpaths).flatten = step1 ctx [] (Dict.values ctx.classpaths).flatten := by
    refine step1_congr (fun it hit seen => ?_) []
    unfold nameAndAttribute
    rw [itemNameVerify_other, attributeVerify_other]
    intro hn v c hv ht
    obtain ⟨n, hin, ha⟩ := catalog_val_inTree hc (hcat it hit) hv
    rw [hn] at ha
    rw [henv] at ht
    exact hm c (.inr (.inr ⟨n, hin, .inl ⟨v, ha, ht⟩⟩))
  have h2 : step2 (ctx.other mgr'.classes mgr'.fieldMinOccursIsOne) = step2 ctx := by
    refine W.forEach_congr fun it hit => ?_
    rw [validateGroup_other (hm _ (.inl rfl))]
    intro c hx
    exact hm c (catalog_class_mentioned hc (hadr it hit) hx)
  exact ⟨rfl, rfl, h1, h2, defaultPlotVerify_other (hm _ (.inr (.inl rfl))), fun k it hit p hp g c hg hd =>
      hm c (.inr (.inr ⟨g, catalog_group_inTree hc (catalog_parent_mem hc (hcp k it hit) hp) hg,
        .inr hd⟩))⟩

/-- C110: definitions that the file does not mention have no influence: with two sets of definitions
that agree on the mentioned ones the validation does the same, finding by finding and with the same
comments, and ends in the same way. -/
theorem unused_definitions (env : Env) {mgr mgr' : Manager} (mins : Dict (Str × Str) Int)
    (f : H5File) (h : AgreeOn (Mentions env f) mgr mgr') :
    validateOpen env mgr mins f = validateOpen env mgr' mins f := by
  unfold validateOpen
  cases hc : (catalog env f).res with
  | error e => rfl
  | ok u =>
    simp only
    obtain ⟨he, a⟩ := alike_checks mins hc h.items h.names h.classes
    have h3 : step3 (mkCtx env mgr' mins f) = step3 (mkCtx env mgr mins f) := by
      unfold step3
      rw [a.classpaths]
      refine W.forEach_congr fun k _ => W.forEach_congr fun it hit => ?_
      cases hp : it.parent with
      | none => rfl
      | some p =>
        simp only
        have ha := a.parents k it hit p hp
        rw [he] at ha ⊢
        exact appDefVerify_other h.minOccurs.symm ha
    unfold runChecks
    simp only [a.classpaths, a.mins, a.step1, a.step2, h3, a.plot]

/-- C110: if they differ also in the default of `minOccurs` (both have one, or none), then the lines
of the report and the way it ends are the same. -/
theorem unused_definitions_lines (env : Env) {mgr mgr' : Manager} (mins : Dict (Str × Str) Int)
    (f : H5File) (hi : mgr.itemPats = mgr'.itemPats) (hn : mgr.classPats = mgr'.classPats)
    (hb : mgr'.fieldMinOccursIsOne = none ↔ mgr.fieldMinOccursIsOne = none)
    (h : ∀ c, Mentions env f c → Dict.get? mgr.classes c = Dict.get? mgr'.classes c) :
    (findings (validateOpen env mgr mins f).log).map lineOf =
      (findings (validateOpen env mgr' mins f).log).map lineOf ∧
    (validateOpen env mgr mins f).res = (validateOpen env mgr' mins f).res := by
  suffices Uncommented (validateOpen env mgr' mins f) (validateOpen env mgr mins f) from
    ⟨this.lines.symm, this.1.symm⟩
  unfold validateOpen
  cases hc : (catalog env f).res with
  | error e => exact .refl _
  | ok u =>
    simp only
    obtain ⟨he, a⟩ := alike_checks mins hc hi hn h
    have h3 : Uncommented (step3 (mkCtx env mgr' mins f)) (step3 (mkCtx env mgr mins f)) := by
      unfold step3
      rw [a.classpaths]
      refine .forEach fun k _ => .forEach fun it hit => ?_
      cases hp : it.parent with
      | none => exact .refl _
      | some p =>
        simp only
        have ha := a.parents k it hit p hp
        rw [he] at ha ⊢
        exact appDefVerify_same hb ha
    unfold runChecks
    simp only [a.classpaths, a.mins, a.step1, a.step2, a.plot]
    generalize step1 (mkCtx env mgr mins f) [] (Dict.values (mkCtx env mgr mins f).classpaths).flatten
      = s1
    have hw : Uncommented (do s1; step2 (mkCtx env mgr mins f); step3 (mkCtx env mgr' mins f))
        (do s1; step2 (mkCtx env mgr mins f); step3 (mkCtx env mgr mins f)) :=
      .bind (.refl _) fun _ => .bind (.refl _) fun _ => h3
    rw [← applyMins_bare _ (W.log _), hw.2, applyMins_bare]
    exact .bind hw fun _ => .refl _

/-- C110: so does the validator object: its state afterwards and the exception, if there is one. -/
theorem unused_definitions_validate (env : Env) {mgr mgr' : Manager} (fs : Str → FileState)
    (name : Str) (s : VState)
    (h : ∀ f, fs name = .hdf5 f → AgreeOn (Mentions env f) mgr mgr') :
    validate env mgr fs name s = validate env mgr' fs name s := by
  unfold validate
  cases hf : fs name with
  | missing => rfl
  | notHdf5 => rfl
  | hdf5 f => simp only [unused_definitions env s.minOccurs f (h f hf)]

/-- C110: and `punx validate`: the same is printed if the two installations have the same file sets,
and the chosen one agrees on what the file mentions. -/
theorem unused_definitions_command {w w' : World} (a : ValidateArgs) (hs : w.sets = w'.sets)
    (he : w.env = w'.env) (hu : w.upper = w'.upper) (hf : w.files = w'.files)
    (hl : ∀ ref, a.fileSet = some ref →
      w.load ref = w'.load ref ∨
      ∃ m m', w.load ref = .ok m ∧ w'.load ref = .ok m' ∧
        ∀ f, w.files a.infile = .hdf5 f → AgreeOn (Mentions w.env f) m m') :
    funcValidate w a = funcValidate w' a := by
  have hv : ∀ m m' ch, (∀ f, w.files a.infile = .hdf5 f → AgreeOn (Mentions w.env f) m m') →
      validateAndReport w m a.infile ch = validateAndReport w' m' a.infile ch := by
    intro m m' ch h
    unfold validateAndReport
    rw [← he, ← hf, unused_definitions_validate w.env w.files a.infile VState.init h]
  unfold funcValidate
  rw [← hs, ← hu]
  cases w.sets with
  | error e => rfl
  | ok sets =>
    simp only
    by_cases h0 : endsWith a.infile s%".nxdl.xml" = true
    · rw [if_pos h0, if_pos h0]
    rw [if_neg h0, if_neg h0]
    cases hr : a.fileSet with
    | none => rfl
    | some ref =>
      simp only
      rcases hl ref hr with hl | ⟨m, m', h1, h2, h3⟩
      · rw [← hl]
        cases w.load ref with
        | error e => rfl
        | ok m => simp only [hv m m _ fun f _ => ⟨rfl, rfl, rfl, fun _ _ => rfl⟩]
      · simp only [h1, h2, hv m m' _ h3]

/-- C110: a definition more, or a changed one, under a name the file does not mention. -/
theorem unused_definition_set (env : Env) (mgr : Manager) (mins : Dict (Str × Str) Int) (f : H5File)
    {c : Str} (d : ClassDef) (h : ¬ Mentions env f c) :
    validateOpen env { mgr with classes := Dict.set mgr.classes c d } mins f =
      validateOpen env mgr mins f :=
  unused_definitions env mins f ⟨rfl, rfl, rfl, fun c' hc => by
    have : c' ≠ c := fun e => h (e ▸ hc)
    show Dict.get? (Dict.set mgr.classes c d) c' = Dict.get? mgr.classes c'
    rw [Dict.get?_set, if_neg this.symm]⟩

/-! ## cases -/

mutual
theorem AllNodes_inTree {P : Node → Prop} {n : Node} : (m : Node) → AllNodes P m → InTree m n → P n
  | .group m a ks, h, hi => by
    rw [AllNodes] at h
    cases hi with
    | self => exact h.1
    | member hk hx => exact AllKids_inTree ks h.2 _ _ hk hx
  | .dataset .., h, hi => by
    rw [AllNodes] at h
    cases hi; exact h
  | .datatype .., h, hi => by
    rw [AllNodes] at h
    cases hi; exact h
theorem AllKids_inTree {P : Node → Prop} {n : Node} : (ks : Kids) → AllKids P ks → ∀ l k,
    (l, some k) ∈ ks.toList → InTree k n → P n
  | .nil, _, _, _, hk, _ => by simp [Kids.toList] at hk
  | .cons l' k' m rest, h, l, k, hk, hx => by
    rw [AllKids] at h
    rw [Kids.toList, List.mem_cons] at hk
    rcases hk with hk | hk
    · injection hk with _ e
      injection e with e
      subst e
      exact AllNodes_inTree k h.1 hx
    · exact AllKids_inTree rest h.2 l k hk hx
  | .broken l' k' rest, h, l, k, hk, hx => by
    rw [AllKids] at h
    rw [Kids.toList, List.mem_cons] at hk
    rcases hk with hk | hk
    · injection hk with _ e
      cases e
    · exact AllKids_inTree rest h l k hk hx
end

/-- `nameFile` mentions three definitions. -/
theorem nameFile_mentions {c : Str} (h : Mentions sampleEnv nameFile c) :
    c = s%"NXroot" ∨ c = s%"NXentry" ∨ c = s%"NXcollection" := by
  rcases h with h | h | ⟨n, hn, h⟩
  · exact .inl h
  · exact .inr (.inl h)
  · have hall : AllNodes (fun n =>
        (∀ ka ∈ n.attrs, ka.2 = .str s%"NXentry" ∨ ka.2 = .str s%"NXcollection" ∨ ka.1 = s%"units") ∧
        h5get nameFile n s%"definition" = .ok none) nameFile.root := by
      simp only [H5File.root, nameFile, entryFile, fieldIn, AllNodes, AllKids, Node.attrs]
      refine ⟨⟨by decide, rfl⟩, ⟨⟨by decide, rfl⟩, ⟨by decide, rfl⟩, ⟨by decide, rfl⟩,
        ⟨by decide, rfl⟩, ⟨⟨by decide, rfl⟩, ⟨by decide, rfl⟩, trivial⟩, trivial⟩, trivial⟩
    have hp := AllNodes_inTree _ hall hn
    rcases h with ⟨v, hv, ht⟩ | ⟨m, a, d, hd, _⟩
    · rcases hp.1 _ hv with e | e | e
      · rcases ht with ht | ⟨b, ht, _⟩
        · rw [ht] at e; injection e with e; exact .inr (.inl e)
        · rw [ht] at e; cases e
      · rcases ht with ht | ⟨b, ht, _⟩
        · rw [ht] at e; injection e with e; exact .inr (.inr e)
        · rw [ht] at e; cases e
      · exact absurd (show s%"NX_class" = s%"units" from e) (by decide)
    · rw [hp.2] at hd
      cases hd

/-- The sample definitions without NXdata and NXsas. -/
def threeMgr : Manager :=
  { sampleMgr with classes :=
      (sampleMgr.classes.filter fun d => d.1 ≠ s%"NXdata" ∧ d.1 ≠ s%"NXsas") }

/-- Three definitions are enough for `nameFile`. -/
example : AgreeOn (Mentions sampleEnv nameFile) sampleMgr threeMgr :=
  ⟨rfl, rfl, rfl, fun c hc => by
    rcases nameFile_mentions hc with rfl | rfl | rfl <;> rfl⟩

/-- Every kind of mention matters: what the file says in `NX_class`, what it declares, and the two
definitions that are always used. -/
example : (validateOpen sampleEnv threeMgr [] markedFile).log ≠
      (validateOpen sampleEnv sampleMgr [] markedFile).log ∧
    (validateOpen sampleEnv threeMgr [] (modeFile s%"b")).log ≠
      (validateOpen sampleEnv sampleMgr [] (modeFile s%"b")).log ∧
    (validateOpen sampleEnv { sampleMgr with classes := sampleMgr.classes.drop 1 } [] emptyFile).log ≠
      (validateOpen sampleEnv sampleMgr [] emptyFile).log ∧
    (validateOpen sampleEnv { sampleMgr with classes := sampleMgr.classes.take 1 } [] emptyFile).log ≠
      (validateOpen sampleEnv sampleMgr [] emptyFile).log := by
  refine ⟨?_, ?_, ?_, ?_⟩ <;> decide +kernel

end Punx
