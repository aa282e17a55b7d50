import Verif.Fn.LambdaFill

/-! The exact text of the statements with a lambda. -/

namespace Verif.Fn
open Verif.Py Verif.Type Verif.Adapt Verif.Template Verif.Template.Spec
open Spec (Plain Tidy placeholders)

/-- The arrow of the lambda: none for `void`. -/
def arrowOf (fullRet : Str) : Option Str := if fullRet = void_ then none else some fullRet

/-- The lambda of a function. -/
def lambdaOf (o : Options) (f : Func) (fullRet : Str) : Spec.Callable :=
  .lambda (lambdaParams f) (arrowOf fullRet) (lambdaCode o f)
    (callText fullRet (if isMethod f && f.lambdaToCall.isNone then "self.".toList else [])
      (f.lambdaToCall.getD (f.aName ++ f.aSpecialization)) (callNames f.aParams))

theorem lambdaStr_text (o : Options) (f : Func) (args : List Str) (fullRet : Str) (h : Usual o f args)
    (hret : fullReturnType o f.aRet = some fullRet) (hr : Plain fullRet) (hps : ∀ p ∈ lambdaParams f, Plain p)
    (hcall : Plain (f.lambdaToCall.getD (f.aName ++ f.aSpecialization))) (hnames : ∀ p ∈ f.aParams, Plain p.name)
    (hcode : ∀ c, lambdaCode o f = some c → Plain c) :
    lambdaStr o f = some (Spec.statement (lambdaHead o f).1 ((lambdaOf o f fullRet).text o.indent ++ (lambdaHead o f).2) false o.indent
      (annotations o f args) (isMethod f)) := by
  have hi := h.indent
  have hend := endPart_text o f args h.pyargs hi (fun a ha => (h.anns a ha).plain) (fun a ha => (h.anns a ha).tidy)
  have hrec : Plain (receiver f) := by unfold receiver; split; exact plain_nil; exact h.moduleVar
  have hcp : Plain (creationPart o f) := by
    rw [creationPart_text o f hi h.moduleVar h.name h.location]
    exact head_plain _ hrec h.name (location_plain o f hi h.location)
  have hhead : Plain (lambdaHead o f).1 ∧ Plain (lambdaHead o f).2 := by
    unfold lambdaHead
    by_cases hc : isConstructor f = true
    · rw [if_pos hc]
      cases o.nanobind
      · rw [if_neg Bool.false_ne_true]
        show Plain ".def(py::init(".toList ∧ Plain ")".toList
        exact ⟨plain_of_no_open (by decide +kernel), plain_of_no_open (by decide +kernel)⟩
      · rw [if_pos rfl]
        show Plain ".def(\"__init__\", ".toList ∧ Plain []
        exact ⟨plain_of_no_open (by decide +kernel), plain_nil⟩
    · rw [if_neg hc]
      dsimp only
      exact ⟨hcp, plain_nil⟩
  have hE : Plain (Spec.laid o.indent (annotations o f args) ++ Spec.closing (isMethod f)) :=
    plain_append (laid_plain hi _ (fun a ha => (h.anns a ha).plain)) (by cases isMethod f <;> exact plain_of_no_open (by decide))
  have hcs : Plain commaSpace := plain_of_no_open (by decide)
  have harrow : Plain (if fullRet = void_ then [] else " -> ".toList ++ fullRet) := by
    split
    · exact plain_nil
    · exact plain_append (plain_of_no_open (by decide)) hr
  have hcallee : Plain (returnStr f fullRet) := by
    rw [returnStr_text f fullRet hcall]
    unfold callText
    refine plain_append (plain_append (plain_append (plain_append (plain_append ?_ ?_) hcall) (plain_of_no_open (by decide)))
      (plain_join hcs _ ?_)) (plain_of_no_open (by decide))
    · split
      · exact plain_nil
      · exact plain_of_no_open (by decide)
    · split
      · exact plain_of_no_open (by decide)
      · exact plain_nil
    · intro x hx
      obtain ⟨p, hp, rfl⟩ := List.mem_map.1 hx
      exact hnames p hp
  have e := endText_plain false hE
  have hfill := lambda_fill o.indent (lambdaHead o f).1 (lambdaHead o f).2 (join commaSpace (lambdaParams f))
    (if fullRet = void_ then [] else " -> ".toList ++ fullRet) (returnStr f fullRet)
    (endText false (Spec.laid o.indent (annotations o f args) ++ Spec.closing (isMethod f))) (lambdaCode o f) hi hhead.1 hhead.2
    (plain_join hcs _ hps) harrow hcallee e hcode
  rw [drop_tail _ o.indent hi false (isMethod f) (annotations o f args) h.anns] at hfill
  have he : endText false (Spec.laid o.indent (annotations o f args) ++ Spec.closing (isMethod f)) =
      if contains (Spec.laid o.indent (annotations o f args) ++ Spec.closing (isMethod f)) ['\n'] then
        ['\n'] ++ (Spec.laid o.indent (annotations o f args) ++ Spec.closing (isMethod f))
      else Spec.laid o.indent (annotations o f args) ++ Spec.closing (isMethod f) := rfl
  rw [lambdaStr, hret, hend, Option.bind_some, Option.map_some]
  refine congrArg some ?_
  rw [← he, hfill]
  unfold Spec.statement lambdaOf Spec.Callable.text
  rw [returnStr_text f fullRet hcall]
  have ha : (if fullRet = void_ then [] else " -> ".toList ++ fullRet) =
      (match arrowOf fullRet with | none => [] | some r => " -> ".toList ++ r) := by
    unfold arrowOf
    by_cases hv : fullRet = void_
    · rw [if_pos hv, if_pos hv]
    · rw [if_neg hv, if_neg hv]
  rw [ha]
  simp only [List.append_assoc]
  rfl

end Verif.Fn
