import Verif.Py.StrLemmas
import Verif.Lines.Props
import Verif.Indent.Props
import Verif.Comment.Props
import Verif.Name.Props
import Verif.Markers.Props
import Verif.Escape.Props
import Verif.Space.Props
import Verif.Template.Props
import Verif.Repl.Props
import Verif.Amalg.Props
import Verif.Prep.Props
import Verif.Attach.Props
import Verif.Scope.Props
import Verif.Num.Props
import Verif.Base.Props
import Verif.Type.Props
import Verif.Tree.Props
import Verif.Overload.Props
import Verif.Adapt.Props
import Verif.Adapt.PropsBuffers
import Verif.Adapt.PropsRun
import Verif.Adapt.PropsInterface
import Verif.Adapt.PropsForce
import Verif.Keyword.Props
import Verif.Arr.Props
import Verif.Arr.PropsCheck
import Verif.TArgs.Props
import Verif.Elem.Props
import Verif.Elem.PropsVar
import Verif.Tpl.Props
import Verif.Publish.Props
import Verif.Custom.Props
import Verif.Boxed.Props
import Verif.Gen.Props
import Verif.Gen.PropsContext
import Verif.Gen.PropsGlue
import Verif.Gen.PropsCode
import Verif.Glue.Props
import Verif.Glue.PropsVirt
import Verif.Glue.PropsTramp
import Verif.Enums.Props
import Verif.Inst.Props
import Verif.Parse.PropsSurvive
import Verif.Parse.PropsComments
import Verif.Template.Inert
import Verif.Fn.Model
import Verif.Fn.Spec
import Verif.Fn.Meaning
import Verif.Fn.Intent
import Verif.Fn.Brackets
import Verif.Fn.Lemmas
import Verif.Fn.Text
import Verif.Fn.Stmt
import Verif.Fn.LambdaFill
import Verif.Fn.Lambda
import Verif.Fn.CtorFill
import Verif.Fn.Ctor
import Verif.Fn.Demo
import Verif.Fn.Props
import Verif.Fn.PropsCount
import Verif.Fn.StubProps
import Verif.Fn.StubText
import Verif.Fn.Policy
import Verif.Fn.PropsDoc
import Verif.Cls.Model
import Verif.Cls.ModelClass
import Verif.Cls.Spec
import Verif.Cls.Demo
import Verif.Cls.Lemmas
import Verif.Cls.PropsMember
import Verif.Cls.Text
import Verif.Cls.Closed
import Verif.Cls.PropsClass
import Verif.Cls.PropsNamed
import Verif.Cls.PropsBody
import Verif.Cls.PropsCopy
import Verif.Cls.PropsStub
import Verif.Cls.PropsContents
import Verif.Unit.Model
import Verif.Unit.Spec
import Verif.Unit.Rows
import Verif.Unit.Occs
import Verif.Unit.Run
import Verif.Unit.Binding
import Verif.Unit.Stub
import Verif.Unit.Props
import Verif.Unit.PropsStub
import Verif.Unit.PropsFill
import Verif.Unit.PropsElem
import Verif.Re.Model
import Verif.Re.ModelStd
import Verif.Re.Spec
import Verif.Re.Lemmas
import Verif.Re.Scan
import Verif.Re.Words
import Verif.Re.Std
import Verif.Re.Compile
import Verif.Re.SpecValue
import Verif.Re.Number
import Verif.Re.NumberScan
import Verif.Re.Value
import Verif.Re.ValuePass
import Verif.Re.ValueAll
import Verif.Re.ValueTheorem
import Verif.Re.ValueFinal
import Verif.Re.CommentFinal
import Verif.Re.Props
import Verif.Re.PropsValue
import Verif.Re.Phrase
import Verif.Re.SpecType
import Verif.Re.TypeTok
import Verif.Re.TypeQuiet
import Verif.Re.TypeKind
import Verif.Re.TypeFlat
import Verif.Re.TypeLast
import Verif.Re.TypeHead
import Verif.Re.TypeAll
import Verif.Re.PropsType
import Verif.Py.Split
import Verif.TArgs.Tidy
import Verif.ToPy.Model
import Verif.ToPy.SpecQual
import Verif.ToPy.Qualify
import Verif.ToPy.PropsQual
import Verif.ToPy.SpecCall
import Verif.ToPy.Call
import Verif.ToPy.PropsCall
import Verif.ToPy.SpecNs
import Verif.ToPy.Ns
import Verif.ToPy.PropsNs
import Verif.ToPy.SpecVal
import Verif.ToPy.Macro
import Verif.ToPy.PropsVal
import Verif.ToPy.SpecTypes
import Verif.ToPy.Types
import Verif.ToPy.PropsTypes
import Verif.Mut.Model
import Verif.Mut.Spec
import Verif.Mut.Lemmas
import Verif.Mut.Values
import Verif.Mut.Props
import Verif.Qual.Model
import Verif.Qual.Spec
import Verif.Qual.Lemmas
import Verif.Qual.Props
import Verif.Lam.Model
import Verif.Lam.Spec
import Verif.Lam.Lemmas
import Verif.Lam.Props
import Verif.Lam.Ctor
import Verif.Print.Model
import Verif.Print.Spec
import Verif.Print.Lemmas
import Verif.Print.Props
import Verif.Print.PropsElem
import Verif.Find.Model
import Verif.Find.Spec
import Verif.Find.Lemmas
import Verif.Find.Names
import Verif.Find.Plain
import Verif.Find.Types
import Verif.Find.Alternatives
import Verif.Find.Joined
import Verif.Pimpl.Model
import Verif.Pimpl.Spec
import Verif.Pimpl.Lemmas
import Verif.Pimpl.Texts
import Verif.Pimpl.Names
import Verif.Pimpl.Glue
import Verif.Pimpl.Header
import Verif.Query.Model
import Verif.Query.Spec
import Verif.Query.Props
import Verif.Query.ModelChildren
import Verif.Query.SpecChildren
import Verif.Query.PropsChildren
import Verif.Cache.Model
import Verif.Cache.Spec
import Verif.Cache.Props
import Verif.Cache.Classes
import Verif.Cache.Calls
import Verif.Cache.Scopes
import Verif.Cache.Several
import Verif.Gen.Typical
import Verif.Gen.TypicalPieces
import Verif.Gen.PropsTypical
import Verif.Where.Model
import Verif.Where.Props
import Verif.Names.Model
import Verif.Names.Props
import Verif.Ids.Model
import Verif.Ids.Props
import Verif.Warn.Model
import Verif.Warn.Props
import Verif.Xml.Model
import Verif.Xml.Props
import Verif.CArray.Model
import Verif.CArray.Props
import Verif.FnKind.Model
import Verif.FnKind.Props
import Verif.PimplFile.Model
import Verif.PimplFile.Props
import Verif.Ignore.Model
import Verif.Ignore.Props
import Verif.Orig.Model
import Verif.Orig.Props
import Verif.Exclude.Model
import Verif.Exclude.Props
import Verif.Attr.Model
import Verif.Attr.Spec
import Verif.Attr.Props
import Verif.Dispatch.Model
import Verif.Dispatch.Spec
import Verif.Dispatch.Lemmas
import Verif.Dispatch.Props
import Verif.Sig.Model
import Verif.Sig.Spec
import Verif.Sig.Props
import Verif.Sig.PropsDedup
import Verif.View.Model
import Verif.View.Spec
import Verif.View.Props
import Verif.Same.Model
import Verif.Same.Spec
import Verif.Same.Props
import Verif.Iter.Model
import Verif.Iter.Props
import Verif.Iter.PropsClass
import Verif.Same.PropsSpaces
