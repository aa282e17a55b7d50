import Verif.Gen.Props
namespace Verif.Gen.Props
/-! C47: the context threaded through the headers. -/

open Verif.Py Verif.Gen.Spec
variable {C : Type}
/-- C47. Each header is processed in the context left by the headers before it, and the generator ends with the context of the last one:
what was met in a header (types, macros, replacements) is known in the following ones. -/
theorem C47_context (e : Env C) (c : C) (fs : Fs) (headers : List Str) (gen : Generator C)
    (hall : processAll e fs ⟨c, []⟩ headers = some gen) :
    ∃ contexts : List C, contexts.length = headers.length + 1 ∧ contexts[0]? = some c ∧ contexts[headers.length]? = some gen.ctx ∧
      gen.codes.length = headers.length ∧
      ∀ i h, headers[i]? = some h → ∃ before code, contexts[i]? = some before ∧ fs h = some code ∧
        contexts[i + 1]? = some (e.process before code h).2 ∧
        gen.codes[i]? = some ⟨h, (e.process before code h).1.2, (e.process before code h).1.1⟩ := by
  have key : ∀ (hs : List Str) (g0 g1 : Generator C), processAll e fs g0 hs = some g1 →
      ∃ contexts : List C, contexts.length = hs.length + 1 ∧ contexts[0]? = some g0.ctx ∧ contexts[hs.length]? = some g1.ctx ∧
      ∃ codes, g1.codes = g0.codes ++ codes ∧ codes.length = hs.length ∧
      ∀ i h, hs[i]? = some h → ∃ before code, contexts[i]? = some before ∧ fs h = some code ∧
        contexts[i + 1]? = some (e.process before code h).2 ∧
        codes[i]? = some ⟨h, (e.process before code h).1.2, (e.process before code h).1.1⟩ := by
    intro hs
    induction hs with
    | nil =>
      intro g0 g1 h
      have h : g0 = g1 := Option.some.inj h
      subst h
      exact ⟨[g0.ctx], rfl, rfl, rfl, [], by simp, rfl, by simp⟩
    | cons x hs ih =>
      intro g0 g1 h
      unfold processAll at h
      cases hx : fs x with
      | none => rw [hx] at h; exact absurd h (by simp)
      | some code =>
        rw [hx] at h
        obtain ⟨cs, l1, l2, l3, codes, l4, l5, l6⟩ := ih _ g1 h
        refine ⟨g0.ctx :: cs, by simp [l1], rfl, by simpa using l3,
          ⟨x, (e.process g0.ctx code x).1.2, (e.process g0.ctx code x).1.1⟩ :: codes, ?_, by simp [l5], ?_⟩
        · rw [l4]; unfold processCode; simp
        · intro i h hi
          cases i with
          | zero =>
            have hi : x = h := by simpa using hi
            subst hi
            exact ⟨g0.ctx, code, rfl, hx, l2, rfl⟩
          | succ i =>
            obtain ⟨b, cd, m1, m2, m3, m4⟩ := l6 i h (by simpa using hi)
            exact ⟨b, cd, by simpa using m1, m2, by simpa using m3, by simpa using m4⟩
  obtain ⟨cs, l1, l2, l3, codes, l4, l5, l6⟩ := key headers ⟨c, []⟩ gen hall
  have l4 : gen.codes = codes := by simpa using l4
  exact ⟨cs, l1, l2, l3, by rw [l4]; exact l5, by rw [l4]; exact l6⟩

/-- Two headers: the context counts the headers. -/
example : (processAll env disk ⟨0, []⟩ ["a.h".toList, "b.h".toList]).map Generator.ctx = some 2 := by decide +kernel

end Verif.Gen.Props
