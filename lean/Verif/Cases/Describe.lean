import Verif.Props.Describe2

/-!
# Cases for C131 and C132
-/

namespace Punx
open Spec

/-- The shipped schema: the numbers are those of `punx/tests/test_nxdl_schema.py:100-101`.  The elements
`symbols`, `attribute`, `doc`, `field`, `group`, `link`, ... in it are not printed. -/
theorem shipped_outline : ((summarize 50 xsdInt (nxdlXsd 705)).toOption.bind fun s =>
    (printSummary 50 s).toOption.map fun p => (p.count, p.tally)) =
      some (18, [(s%"element", 1), (s%"attribute", 16), (s%"group", 1)]) := by decide +kernel

/-- An element with an attribute that is declared twice, an element and a group with an attribute. -/
def outlineDemo : SObj :=
  .mk .element (some s%"a") (some s%"__T") {} [
    .mk .attribute (some s%"z") (some s%"NX_CHAR") {} [],
    .mk .attribute (some s%"u") (some s%"NX_CHAR") {} [],
    .mk .element (some s%"inner") (some s%"str") {} [],
    .mk .group none (some s%"__G") { minOccurs := some s%"0" } [
      .mk .attribute (some s%"w") (some s%"NX_INT") { default := some s%"1" } []],
    .mk .attribute (some s%"z") (some s%"NX_INT") { required := true } []]

/-- Only the second declaration is shown, and the element in the element is not. -/
theorem outlineDemo_printed : ∃ p, printTree 3 0 outlineDemo = .ok p ∧ p.lines =
    [s%"a : NXDL_schema__element(name=a, type=T)",
     s%"    @u : NXDL_schema__attribute(name=u, required=False, type=NX_CHAR)",
     s%"    @z : NXDL_schema__attribute(name=z, required=True, type=NX_INT)",
     s%"    (group) : NXDL_schema__group(minOccurs=0, ref=G)",
     s%"        @w : NXDL_schema__attribute(default_value=1, name=w, required=False, type=NX_INT)"] :=
  ⟨_, rfl, by decide +kernel⟩

example : ∃ rows p, Outline 0 outlineDemo rows ∧ printTree 3 0 outlineDemo = .ok p ∧ rows.length = 5 := by
  obtain ⟨p, hp, hl⟩ := outlineDemo_printed
  obtain ⟨rows, h1, -⟩ := (outline_printed_partial outlineDemo).2.1 0
  have h2 := (outline_printed_partial outlineDemo).1 3 0 p hp rows h1
  refine ⟨rows, p, h1, hp, ?_⟩
  have := congrArg List.length h2.lines
  rw [hl, List.length_map] at this
  exact this.symm

/-- C131 is violated by `outlineDemo`: the element in it is listed under its name, but not shown. -/
theorem element_missing : ∃ o c p, LastSuch o c ∧ c.kind = .element ∧ printTree 3 0 o = .ok p ∧
    ∀ rows, Outline 0 o rows → ∀ l, (l, c) ∉ rows := by
  obtain ⟨p, hp, -⟩ := outlineDemo_printed
  refine ⟨outlineDemo, .mk .element (some s%"inner") (some s%"str") {} [], p,
    ⟨outlineDemo.kids.take 2, outlineDemo.kids.drop 3, rfl, ?_⟩, rfl, hp, ?_⟩
  · intro d hd hk
    exfalso
    simp only [outlineDemo, SObj.kids, List.drop, List.mem_cons, List.not_mem_nil, or_false] at hd
    rcases hd with rfl | rfl <;> exact absurd hk (by decide)
  · intro rows hr l hm
    have h := outline_elements hr
    cases hr with
    | mk h1 h2 h3 h4 =>
      rcases List.mem_cons.1 hm with e | hm
      · have : SObj.mk .element (some s%"inner") (some s%"str") {} [] = outlineDemo := (Prod.mk.inj e).2
        simp [outlineDemo] at this
      · exact h _ hm rfl

example : ∃ rows, ShownMembers outlineDemo.members rows ∧ (s%"type", s%"__T") ∈ rows := by
  obtain ⟨rows, h, -⟩ := class_text s%"x" outlineDemo.members (by decide)
  exact ⟨rows, h, (h.content _ _).2 ⟨by decide, by decide⟩⟩

def managerDemo (c : Category) : Dict Str ClassDef :=
  [(s%"NXa", { title := s%"NXa", category := .contributed }),
   (s%"NXb", { title := s%"NXb", category := .baseClasses }),
   (s%"NXc", { title := s%"NXc", category := c })]

example : managerText (managerDemo .contributed) =
    s%"NXDL_Manager(base_classes:1, contributed_definitions:2)" := by decide +kernel
example : managerText (managerDemo .applications) ≠ managerText (managerDemo .contributed) := fun h =>
  absurd ((manager_text_iff _ _).1 h .applications) (by decide)

end Punx
