import Verif.Unit.DeclModel

/-!
# A pool and sources to declare in it

A class `Base` (1) with a method `m` (2) and a field `a` (3), a class `Sub` (4) below it with a method `m` (7) that
overrides the other, a global function `g` (5) and the type `Int32` (6).
-/

namespace Redscript
namespace DeclDemo

def cls (base : Idx) (fs gs : List Idx) : AnyDefinition :=
  .Class { visibility := .pub, flags := 0, base, functions := fs, fields := gs, overrides := [] }

def fn (base : Option Idx) : AnyDefinition :=
  .Function { visibility := .pub, flags := 0, source := none, returnType := none, unk1 := false, baseMethod := base,
              parameters := [], locals := [], operator := none, cast := 0, code := [.Nop], unk2 := [] }

def names : Strings :=
  ⟨["None", "Base", "m;", "Sub", "g;", "a", "Int32"],
    ((((((AMap.empty.insert "None" 0).insert "Base" 1).insert "m;" 2).insert "Sub" 3).insert "g;" 4).insert "a" 5).insert "Int32" 6⟩

def pool : ConstantPool :=
  { names, tweakdbIds := .empty, resources := .empty, strings := .empty,
    definitions := [.default, .mk' 1 0 (cls 0 [2] [3]), .mk' 2 1 (fn none), .mk' 5 1 (.Field ⟨.pub, 6, 0, none, [], []⟩),
      .mk' 3 0 (cls 1 [7] []), .mk' 4 0 (fn none), .mk' 6 0 (.Type .Prim), .mk' 2 4 (fn (some 2))] }

def ann (kind : AnnotationKind) (x : String) : Annotation := ⟨kind, [.Ident x.toList]⟩
def decl (anns : List Annotation) (x : String) (qs : List Qualifier := []) : DeclSource := ⟨anns, qs, x.toList, none⟩
def func (anns : List Annotation) (x : String) (ps : List ParamSource := []) : FunctionSource := ⟨decl anns x, none, ps, some []⟩

def int : TypeName := .mk "Int32".toList []

def sources : List SourceModule := [⟨none, [], [
  .Function (func [ann .ReplaceMethod "Sub"] "m"),
  .Function (func [ann .WrapMethod "Base"] "m"),
  .Function (func [ann .AddMethod "Base"] "k" [⟨[], "x".toList, int⟩]),
  .GlobalLet ⟨decl [ann .AddField "Base"] "b", int, none⟩,
  .Class ⟨decl [] "New", some "Sub".toList, [.Field ⟨decl [] "c", int, none⟩, .Function (func [] "m")]⟩,
  .Enum ⟨decl [] "E", [("x".toList, 3)]⟩]⟩]

/-- The state before and after. -/
def start : DeclState :=
  (DeclState.ofPool pool).getD ⟨pool, ⟨[]⟩, ⟨.empty, .empty, .empty, none, none⟩, ⟨.empty, .empty, .empty, none, none⟩, [], [], .empty, .empty, [], [], []⟩

/-- What the sources make of the pool. -/
def after (ms : List SourceModule) : DeclState := (declareModules 5 false ms start).2

end DeclDemo
end Redscript
