/-
C77: `ExpressionTreeBuilder`, the object, does what the tree-building function of the model does.
-/
import Verif.Proofs.TreeBuilder
import Verif.Props.Contexts

set_option autoImplicit false
set_option linter.unusedSimpArgs false

namespace Fcsql

attribute [local irreducible] parseQuery

/-- **C77.** For every parse tree (from the parser or not), every stack and every way of creating nodes: visiting the
tree with an `ExpressionTreeBuilder`, whose methods are found by name, ask the contexts through their accessors by name
and change the stack of the builder as they go, raises exactly if the tree-building function fails, with the same
exception, and otherwise leaves exactly the stack (and the node objects) the function computes. -/
theorem C77_visitor {ν σ : Type} (A : Alloc ν σ) (rt : PyRuntime) (cfg : Config) (t : PTree) (s : BState ν σ) :
    match acceptCtx ctxClass (treeBuilder A rt cfg) t s with
    | (.ok _, s') => visit A rt cfg t s = .ok s'
    | (.error e, _) => visit A rt cfg t s = .error e := by
  have h := treeBuilder_visit A rt cfg t s
  revert h
  rcases acceptCtx ctxClass (treeBuilder A rt cfg) t s with ⟨_ | _, s'⟩ <;> exact fun h => h.symm

private theorem ite_some {α : Type} {p b : Prop} [Decidable p] {a : α} {x : Option α} (hp : p → b) (h : x.isSome ↔ b) :
    (if p then some a else x).isSome ↔ b := by
  by_cases h' : p
  · rw [if_pos h']; simpa using hp h'
  · rwa [if_neg h']

/-- **C77.** The methods an `ExpressionTreeBuilder` has: for every context class the one its `accept` looks for. -/
theorem C77_methods {ν σ : Type} (A : Alloc ν σ) (rt : PyRuntime) (cfg : Config) (name : PyStr) :
    ((treeBuilder A rt cfg).method name).isSome ↔ ∃ r : Rule, name = (ctxClass r).accept := by
  have h1 : ((treeBuilder A rt cfg).method name).isSome ↔ name ∈ visitorMethods := by
    show (treeBuilderMethod A rt cfg name).isSome ↔ _
    unfold treeBuilderMethod
    iterate 16 refine ite_some (by rintro rfl; decide) ?_
    simp
  rw [h1, (C65_names.2.1 name)]
  constructor
  · rintro ⟨r, h⟩; exact ⟨r, h.trans (C65_names.1 r).symm⟩
  · rintro ⟨r, h⟩; exact ⟨r, h.trans (C65_names.1 r)⟩

/-- **C77.** Parsing a query without errors is: take the tree `antlr_parse` returns, visit it with a new
`ExpressionTreeBuilder`, and pop the node from its stack, or raise what the builder raised. -/
theorem C77_parse (rt : Runtime) (cfg : Config) (q : PyStr) (t : PTree) (h : antlrParse q = .ok t) (hl : lexErrors q = []) :
    (parseQuery rt cfg q).1 = runBuilder rt.toPyRuntime cfg t := by
  obtain ⟨cst, hs, rfl⟩ := syntaxOf_of_parse (antlrParse_ok.1 h)
  rw [parseQuery_syntax rt cfg q hs hl]
  unfold runBuilder build buildWith
  rw [← treeBuilder_visit]
  rcases acceptCtx ctxClass (treeBuilder pureAlloc rt.toPyRuntime cfg) cst.toTree ⟨(), []⟩ with ⟨_ | _, ⟨_, st⟩⟩
  · rfl
  · rcases st with _ | ⟨x, st⟩
    · rfl
    · cases x <;> rfl

/-- **C77.** On the tree of an accepted query, visiting succeeds or raises independently of what is on the stack; if it
succeeds, exactly one node has been put on the stack and nothing below it was touched.  So one builder can be used for
several trees, and `builder.stack.pop()` after `builder.visit(tree)` returns the node of that tree. -/
theorem C77_stack (rt : PyRuntime) (cfg : Config) (q : PyStr) (t : PTree) (h : antlrParse q = .ok t)
    (stack : List (Item Node)) :
    match build rt cfg t with
    | .ok n => ∃ r, acceptCtx ctxClass (treeBuilder pureAlloc rt cfg) t ⟨(), stack⟩ = (.ok r, ⟨(), .node n :: stack⟩)
    | .error e => ∃ s, acceptCtx ctxClass (treeBuilder pureAlloc rt cfg) t ⟨(), stack⟩ = (.error e, s) := by
  obtain ⟨cst, hs, rfl⟩ := syntaxOf_of_parse (antlrParse_ok.1 h)
  have hv := treeBuilder_visit pureAlloc rt cfg cst.toTree ⟨(), stack⟩
  rw [visit_query pureAlloc rt cfg cst hs.wf] at hv
  unfold build
  rw [buildWith_eq pureAlloc rt cfg cst hs.wf]
  simp only at hv
  rcases hm : cst.mean pureAlloc rt cfg () with e | ⟨n, u⟩
  · rw [hm] at hv
    rcases outcome_cases hv with ⟨a, s', _, e2⟩ | ⟨e', s', e1, e2⟩
    · cases e2
    · cases e2; exact ⟨s', e1⟩
  · rw [hm] at hv
    rcases outcome_cases hv with ⟨a, s', e1, e2⟩ | ⟨e', s', _, e2⟩
    · cases e2; exact ⟨a, e1⟩
    · cases e2

-- A query with every kind of context, visited with items already on the stack; and one whose flags are refused.
example : (match acceptCtx ctxClass (treeBuilder pureAlloc rt0.toPyRuntime locConfig)
      (treeOf py!"([a:b='1'&!(c!=\"\\x41\"/i|d='')]{2,3} 'x'|[])+ within s") ⟨(), [.str py!"below"]⟩ with
    | (.ok none, ⟨_, [.node n, .str b]⟩) =>
      decide (n.nodeType = .QUERY_WITH_WITHIN ∧ n.loc = some ⟨0, 53⟩ ∧ b = py!"below")
    | _ => false) = true := by decide +kernel

example : (match acceptCtx ctxClass (treeBuilder pureAlloc rt0.toPyRuntime locConfig) (treeOf py!"'x'/iI") ⟨(), []⟩ with
    | (.error (.builder _), ⟨_, st⟩) => decide (st.length = 4)
    | _ => false) = true := by decide +kernel

end Fcsql
