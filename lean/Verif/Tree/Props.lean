import Verif.Tree.Lemmas

/-! C30: what is stored in the namespace code tree is emitted once, in its namespace. -/

namespace Verif.Tree.Props
open Verif.Py Spec

/-- C30: after any sequence of calls of `store_code` the emitted code is the document of that sequence, the names of
root namespaces being left out of the paths. -/
theorem C30_refines (cfg : Config) (ops : History) (t : Tree) (hs : storeAll cfg.roots emptyTree ops = some t) :
    fullTreeCode cfg t = document cfg (depthOf (dropRoots cfg.roots ops)) [] (dropRoots cfg.roots ops) :=
  fullTreeCode_document cfg ops t hs

/-- C30: a sequence of calls fails exactly if one of its paths consists of root namespaces only. -/
theorem C30_error (roots : List Str) (ops : History) :
    storeAll roots emptyTree ops = none ↔ ∃ e ∈ ops, ∀ n ∈ e.1, n ∈ roots :=
  storeAll_none roots ops emptyTree [] rep_empty

/-- C30: the lines of the stored codes appear in the emitted code exactly as often as they were stored; the other
lines open or close a namespace that was used. The only thing required of the names is that none is empty. -/
theorem C30_every_line_once (cfg : Config) (hi : ∀ c ∈ cfg.indent, isSpace c = true) (hn : '\n' ∉ cfg.indent)
    (ops : History) (hnm : ∀ e ∈ ops, [] ∉ e.1) (t : Tree) (hs : storeAll cfg.roots emptyTree ops = some t) :
    ∃ marks, (content (fullTreeCode cfg t)).Perm (ops.flatMap (fun e => content e.2) ++ marks) ∧
      ∀ l ∈ marks, ∃ n, (∃ e ∈ ops, n ∈ e.1 ∧ n ∉ cfg.roots) ∧
        (l ∈ content (opening cfg n) ∨ l ∈ content (closing cfg n)) := by
  rw [C30_refines cfg ops t hs]
  have hnm' : Named (dropRoots cfg.roots ops) := by
    intro e he h0
    obtain ⟨e', he', rfl⟩ := List.mem_map.1 he
    exact hnm e' he' (List.mem_filter.1 h0).1
  obtain ⟨marks, h1, h2⟩ := document_perm cfg hi hn _ [] _ hnm' (bounded_depthOf _)
  refine ⟨marks, ?_, ?_⟩
  · have e : allContent (dropRoots cfg.roots ops) = ops.flatMap (fun e => content e.2) := by
      unfold allContent dropRoots
      rw [List.flatMap_map]
    rw [← e]
    exact h1
  · intro l hl
    obtain ⟨n, hu, hl'⟩ := h2 l hl
    refine ⟨n, ?_, hl'⟩
    rcases hu with ⟨e, he, hne⟩ | ⟨_, hne⟩
    · obtain ⟨e', he', rfl⟩ := List.mem_map.1 he
      have := List.mem_filter.1 hne
      exact ⟨e', he', this.1, by simpa using this.2⟩
    · exact absurd rfl hne

/-- C30: the codes stored under one path follow one another in the emitted code, in the order of storing. -/
theorem C30_in_order (cfg : Config) (hi : ∀ c ∈ cfg.indent, isSpace c = true) (hn : '\n' ∉ cfg.indent)
    (ops : History) (hnm : ∀ e ∈ ops, [] ∉ e.1) (t : Tree) (hs : storeAll cfg.roots emptyTree ops = some t)
    (path : List Str) :
    (codesAt path (dropRoots cfg.roots ops)).flatMap content <:+: content (fullTreeCode cfg t) := by
  rw [C30_refines cfg ops t hs]
  have hnm' : Named (dropRoots cfg.roots ops) := by
    intro e he h0
    obtain ⟨e', he', rfl⟩ := List.mem_map.1 he
    exact hnm e' he' (List.mem_filter.1 h0).1
  exact document_infix cfg hi hn path _ [] _ hnm' (bounded_depthOf _)

/-- C30: with a path made of an empty name (`store_code("", code)`) lines do run into one another: the hypothesis on
names of `C30_every_line_once` cannot be dropped. -/
theorem C30_unnamed_boundary :
    ∃ (cfg : Config) (ops : History) (t : Tree), storeAll cfg.roots emptyTree ops = some t ∧
      ¬ "class B".toList ∈ content (fullTreeCode cfg t) ∧ "class B".toList ∈ ops.flatMap (fun e => content e.2) :=
  ⟨⟨.stub, [], "    ".toList, id⟩, [(["N".toList], "class A".toList), (["N".toList, []], "class B".toList)],
    _, rfl, by decide +kernel, by decide +kernel⟩

/-- Two namespaces used in alternation, one nested in the other, below a root namespace. -/
def exampleOps : History :=
  [(["Root".toList, "N".toList], "class A:\n    pass\n".toList),
   (["Root".toList, "N".toList, "M".toList], "class B:\n    pass".toList),
   (["N".toList], "class C:\n    pass".toList)]

def exampleCfg : Config := ⟨.stub, ["Root".toList], "    ".toList, fun s => s.map Char.toLower⟩

example : ∃ t, storeAll exampleCfg.roots emptyTree exampleOps = some t ∧ fullTreeCode exampleCfg t =
    ("\n# <submodule n>\nclass A:\n    pass\nclass C:\n    pass\n    # <submodule m>\n    class B:\n        pass\n" ++
     "    # </submodule m>\n\n# </submodule n>\n").toList :=
  ⟨_, rfl, by decide +kernel⟩

example : (∀ c ∈ exampleCfg.indent, isSpace c = true) ∧ '\n' ∉ exampleCfg.indent ∧ (∀ e ∈ exampleOps, [] ∉ e.1) := by
  decide +kernel

end Verif.Tree.Props
