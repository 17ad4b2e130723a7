import Verif.Parser.ExprModel
import Verif.Unit.DeclModel

/-!
# Declarations of the parser (model)

Model of the rules for declarations and modules (compiler/src/parser.rs:169, 179-195, 202-209, 279-345). As in
`Verif.Parser.ExprModel` the number of steps is bounded, spans and the messages of `expected!` are dropped. A
declaration is not given a location.
-/

namespace Redscript

/-- The words of `qualifier`, in the order they are tried (compiler/src/parser.rs:179-195). -/
def qualifierWords : List (Text × Qualifier) :=
  [("public".toList, .Public), ("protected".toList, .Protected), ("private".toList, .Private), ("abstract".toList, .Abstract),
   ("static".toList, .Static), ("final".toList, .Final), ("const".toList, .Const), ("native".toList, .Native), ("exec".toList, .Exec),
   ("cb".toList, .Callback), ("out".toList, .Out), ("opt".toList, .Optional), ("quest".toList, .Quest),
   ("importonly".toList, .ImportOnly), ("persistent".toList, .Persistent)]

/-- `qualifier` (compiler/src/parser.rs:179-195). -/
def qualifierRule (s : Text) : Peg Qualifier := firstOk qualifierWords fun x => (kw x.1 s).bind fun _ r => .ok x.2 r

/-- `qualifiers` (compiler/src/parser.rs:209). -/
def qualifiersRule (n : Nat) (s : Text) : Peg (List Qualifier) := sepBy blankSep qualifierRule n s

/-- `AnnotationKind::from_str` (compiler/src/parser.rs:142-152, derived): the names of the kinds in camel case. -/
def AnnotationKind.fromStr (t : Text) : Option AnnotationKind :=
  if t = "replaceMethod".toList then some .ReplaceMethod
  else if t = "wrapMethod".toList then some .WrapMethod
  else if t = "replaceGlobal".toList then some .ReplaceGlobal
  else if t = "addMethod".toList then some .AddMethod
  else if t = "addField".toList then some .AddField
  else if t = "if".toList then some .If
  else if t = "runtimeProperty".toList then some .RuntimeProperty
  else none

/-- `annotation` (compiler/src/parser.rs:202-207). -/
def annotationRule (F : FloatParse) (n : Nat) (s : Text) : Peg Annotation :=
  (lit ['@'] s).bind fun _ r =>
  (identRule r).bind fun name r =>
  (lit ['('] (blanks r)).bind fun _ r =>
  (parseArgs F n (blanks r)).bind fun args r =>
  match AnnotationKind.fromStr name with
  | some kind => .ok ⟨kind, args⟩ r
  | none => .fail

/-- `annotation() ** _` -/
def annotationsRule (F : FloatParse) (n : Nat) (s : Text) : Peg (List Annotation) := sepBy blankSep (annotationRule F n) n s

/-- `decl` (compiler/src/parser.rs:279-281) with the word that says what is declared. -/
def declRule (F : FloatParse) (n : Nat) (word s : Text) : Peg DeclSource :=
  (annotationsRule F n s).bind fun annotations r =>
  (qualifiersRule n (blanks r)).bind fun qualifiers r =>
  (kw word (blanks r)).bind fun _ r =>
  (identRule (blanks r)).bind fun name r => .ok ⟨annotations, qualifiers, name, none⟩ r

/-- `field` (compiler/src/parser.rs:283-285). -/
def fieldRule (F : FloatParse) (n : Nat) (s : Text) : Peg FieldSource :=
  (declRule F n "let".toList s).bind fun declaration r =>
  (letType n (blanks r)).bind fun ty r =>
  (Peg.opt (initializer F n (blanks r)) (blanks r)).bind fun default r =>
  (lit [';'] (blanks r)).bind fun _ r => .ok ⟨declaration, ty, default⟩ r

/-- `param` (compiler/src/parser.rs:294-296). -/
def paramRule (n : Nat) (s : Text) : Peg ParamSource :=
  (qualifiersRule n s).bind fun qualifiers r =>
  (identRule (blanks r)).bind fun name r =>
  (letType n (blanks r)).bind fun ty r => .ok ⟨qualifiers, name, ty⟩ r

/-- `func_type` (compiler/src/parser.rs:271). -/
def funcType (n : Nat) (s : Text) : Peg TypeName := (lit "->".toList s).bind fun _ r => typeRule n (blanks r)

/-- `function_body` (compiler/src/parser.rs:290-292). -/
def functionBody (F : FloatParse) (n : Nat) (s : Text) : Peg (List (Expr SourceAst)) :=
  (parseBlock F n s).orElse fun _ =>
  (lit ['='] s).bind fun _ r =>
  (parseExpr F n 0 (blanks r)).bind fun e r => .ok [.Return (some e)] (blanks r)

/-- `";"?` -/
def semicolonHere : Text → Text
  | ';' :: r => r
  | r => r

/-- `function` (compiler/src/parser.rs:287-289). -/
def functionRule (F : FloatParse) (n : Nat) (s : Text) : Peg FunctionSource :=
  (declRule F n "func".toList s).bind fun declaration r =>
  (lit ['('] (blanks r)).bind fun _ r =>
  (sepBy commaSep (paramRule n) n (blanks r)).bind fun parameters r =>
  (lit [')'] (blanks r)).bind fun _ r =>
  (Peg.opt (funcType n (blanks r)) (blanks r)).bind fun ty r =>
  (Peg.opt (functionBody F n (blanks r)) (blanks r)).bind fun body r =>
  .ok ⟨declaration, ty, parameters, body⟩ (semicolonHere r)

/-- `member` (compiler/src/parser.rs:308-311). -/
def memberRule (F : FloatParse) (n : Nat) (s : Text) : Peg MemberSource :=
  ((functionRule F n s).bind fun f r => .ok (.Function f) r).orElse fun _ =>
  (fieldRule F n s).bind fun f r => .ok (.Field f) r

/-- `extends` (compiler/src/parser.rs:298). -/
def extendsRule (s : Text) : Peg Text := (kw "extends".toList s).bind fun _ r => identRule (blanks r)

/-- `"{" _ members:member()**_ _ "}"` -/
def membersRule (F : FloatParse) (n : Nat) (s : Text) : Peg (List MemberSource) :=
  (lit ['{'] s).bind fun _ r =>
  (sepBy blankSep (memberRule F n) n (blanks r)).bind fun members r =>
  (lit ['}'] (blanks r)).bind fun _ r => .ok members r

/-- `class` (compiler/src/parser.rs:300-302). -/
def classRule (F : FloatParse) (n : Nat) (s : Text) : Peg ClassSource :=
  (declRule F n "class".toList s).bind fun declaration r =>
  (Peg.opt (extendsRule (blanks r)) (blanks r)).bind fun base r =>
  (membersRule F n (blanks r)).bind fun members r => .ok ⟨declaration, base, members⟩ r

/-- `struct_` (compiler/src/parser.rs:304-306). -/
def structRule (F : FloatParse) (n : Nat) (s : Text) : Peg ClassSource :=
  (declRule F n "struct".toList s).bind fun declaration r =>
  (membersRule F n (blanks r)).bind fun members r => .ok ⟨declaration, none, members⟩ r

/-- `enum_member` (compiler/src/parser.rs:317-324). -/
def enumMember (F : FloatParse) (s : Text) : Peg (Text × BitVec 64) :=
  (identRule s).bind fun name r =>
  (lit ['='] (blanks r)).bind fun _ r =>
  (numberRule F (blanks r)).bind fun value r =>
  match value with
  | .I32 v => .ok (name, v.signExtend 64) r
  | .I64 v => .ok (name, v) r
  | _ => .fail

/-- `enum_` (compiler/src/parser.rs:313-315). -/
def enumRule (F : FloatParse) (n : Nat) (s : Text) : Peg EnumSource :=
  (declRule F n "enum".toList s).bind fun declaration r =>
  (lit ['{'] (blanks r)).bind fun _ r =>
  (sepBy commaSep (enumMember F) n (blanks r)).bind fun members r =>
  (Peg.opt (lit [','] (blanks r)) (blanks r)).bind fun _ r =>
  (lit ['}'] (blanks r)).bind fun _ r => .ok ⟨declaration, members⟩ r

/-- `source_entry` (compiler/src/parser.rs:326-332). -/
def entryRule (F : FloatParse) (n : Nat) (s : Text) : Peg SourceEntry :=
  ((functionRule F n s).bind fun f r => .ok (.Function f) r).orElse fun _ =>
  ((classRule F n s).bind fun c r => .ok (.Class c) r).orElse fun _ =>
  ((structRule F n s).bind fun c r => .ok (.Struct c) r).orElse fun _ =>
  ((fieldRule F n s).bind fun f r => .ok (.GlobalLet f) r).orElse fun _ =>
  (enumRule F n s).bind fun e r => .ok (.Enum e) r

/-- `"." _` -/
def dotSep (s : Text) : Peg Unit := (lit ['.'] s).bind fun _ r => .ok () (blanks r)

/-- `dotsep(<ident()>)` (compiler/src/parser.rs:169). -/
def pathRule (n : Nat) (s : Text) : Peg ModulePath := sepBy dotSep identRule n s

/-- What the alternatives of `import` start with: the annotations and the path (compiler/src/parser.rs:335, 337, 339). -/
def importStart (F : FloatParse) (n : Nat) (s : Text) : Peg (List Annotation × ModulePath) :=
  (annotationsRule F n s).bind fun annotations r =>
  (kw "import".toList (blanks r)).bind fun _ r =>
  (pathRule n (blanks r)).bind fun path r => .ok (annotations, path) r

/-- `import` (compiler/src/parser.rs:334-340). -/
def importRule (F : FloatParse) (n : Nat) (s : Text) : Peg (Import × List Annotation) :=
  ((importStart F n s).bind fun p r =>
    (lit ['.'] (blanks r)).bind fun _ r =>
    (lit ['*'] (blanks r)).bind fun _ r => .ok (.All p.2, p.1) r).orElse fun _ =>
  ((importStart F n s).bind fun p r =>
    (lit ['.'] (blanks r)).bind fun _ r =>
    (lit ['{'] (blanks r)).bind fun _ r =>
    (sepBy commaSep identRule n (blanks r)).bind fun names r =>
    (lit ['}'] (blanks r)).bind fun _ r => .ok (.Selected p.2 names, p.1) r).orElse fun _ =>
  ((importStart F n s).bind fun p r => .ok (.Exact p.2, p.1) r)

/-- `module_path` (compiler/src/parser.rs:342-343). -/
def modulePath (n : Nat) (s : Text) : Peg ModulePath := (kw "module".toList s).bind fun _ r => pathRule n (blanks r)

/-- `module` (compiler/src/parser.rs:345-347). -/
def moduleRule (F : FloatParse) (n : Nat) (s : Text) : Peg SourceModule :=
  (Peg.opt (modulePath n (blanks s)) (blanks s)).bind fun path r =>
  (sepBy blankSep (importRule F n) n (blanks r)).bind fun imports r =>
  (sepBy blankSep (entryRule F n) n (blanks r)).bind fun entries r => .ok ⟨path, imports, entries⟩ (blanks r)

/-- `parse_str`, `parse_file` (compiler/src/parser.rs:154-160): the rule has to match the whole text. -/
def parseModule (F : FloatParse) (n : Nat) (s : Text) : Option SourceModule :=
  match moduleRule F n s with
  | .ok m [] => some m
  | _ => none

end Redscript
