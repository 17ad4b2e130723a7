import Verif.Parser.Ends
import Verif.Parser.DeclRules

/-!
# Reading declarations ends (lemmas for C68)
-/

namespace Redscript

open Peg (Ends)

variable {E : Prop} {F : FloatParse} {n : Nat}

/-- A type behind blanks, where there are steps enough. -/
theorem args_skip (r : Text) (hE : E → 4 * r.length + 3 ≤ n) : Ends E 0 r (parseArgs F n (blanks r)) := by
  have := blanks_length r
  exact .skip (((exprs_end F n).args _).given fun h => by have := hE h; omega)

theorem qualifierRule_ends (s : Text) : Ends E 1 s (qualifierRule s) := by
  refine .first fun x hx => .kws ?_ fun _ _ => .here
  revert x
  decide

theorem qualifiersRule_ends (s : Text) (hE : E → s.length ≤ n) : Ends E 0 s (qualifiersRule n s) :=
  sepBy_ends (fun r _ => blankSep_ends r) (fun r _ => qualifierRule_ends r) hE

theorem annotationRule_ends (s : Text) (hE : E → 4 * s.length ≤ n) : Ends E 1 s (annotationRule F n s) := by
  refine .lits (by decide) fun r hr => .bind (identRule_ends r).any fun _ r' hr' => .skip ?_
  have h1 := blanks_length r'
  refine .bind (lit_ends ['('] _).any fun _ r'' hr'' => .bind (args_skip r'' fun h => by have := hE h; omega) fun _ _ _ => ?_
  split
  · exact .here
  · exact .fail

theorem annotationsRule_ends (s : Text) (hE : E → 4 * s.length ≤ n) : Ends E 0 s (annotationsRule F n s) :=
  sepBy_ends (fun r _ => blankSep_ends r) (fun r hr => annotationRule_ends r fun h => by have := hE h; omega)
    fun h => by have := hE h; omega

theorem declRule_ends {word : Text} (s : Text) (hE : E → 4 * s.length ≤ n) : Ends E 1 s (declRule F n word s) := by
  refine .next (annotationsRule_ends s hE) fun _ r hr => .skip ?_
  have h1 := blanks_length r
  refine .next (qualifiersRule_ends _ fun h => ?_) fun _ r' hr' => .skip (.next (kw_ends word _).any fun _ r'' hr'' => .skip
    (.bind (identRule_ends _) fun _ _ _ => .here))
  have := hE h
  omega

theorem fieldRule_ends (s : Text) (hE : E → 4 * s.length ≤ n) : Ends E 1 s (fieldRule F n s) := by
  refine .bind (declRule_ends s hE) fun _ r hr => .skip ?_
  have h1 := blanks_length r
  refine .bind (letType_ends _ fun h => by have := hE h; omega).any fun _ r' hr' => .skip ?_
  have h2 := blanks_length r'
  exact .bind (.opt (initializer_ends _ fun h => by have := hE h; omega).any) fun _ _ _ =>
    .skip (.bind (lit_ends _ _).any fun _ _ _ => .here)

theorem paramRule_ends (s : Text) (hE : E → 4 * s.length ≤ n) : Ends E 1 s (paramRule n s) := by
  refine .next (qualifiersRule_ends s fun h => by have := hE h; omega) fun _ r hr => .skip
    (.bind (identRule_ends _) fun _ r' hr' => .skip ?_)
  have h1 := blanks_length r
  have h2 := blanks_length r'
  exact .bind (letType_ends _ fun h => by have := hE h; omega).any fun _ _ _ => .here

theorem funcType_ends (s : Text) (hE : E → 4 * s.length ≤ n) : Ends E 1 s (funcType n s) :=
  .lits (by decide) fun r hr => (type_skip r fun h => by have := hE h; omega).any

theorem functionBody_ends (s : Text) (hE : E → 4 * s.length + 1 ≤ n) : Ends E 1 s (functionBody F n s) :=
  .orElse (((stmts_end n).block s).given hE)
    (.lits (by decide) fun r hr => .bind (expr_skip 0 r fun h => by have := hE h; omega).any fun _ _ _ => .skipped)

theorem semicolonHere_ends {a : α} (s : Text) : Ends E 0 s (.ok a (semicolonHere s)) := by
  unfold semicolonHere
  split
  · exact .done (c := [';']) rfl (Nat.zero_le _)
  · exact .here

theorem functionRule_ends (s : Text) (hE : E → 4 * s.length ≤ n) : Ends E 1 s (functionRule F n s) := by
  refine .bind (declRule_ends s hE) fun _ r1 h1 => .skip (.bind (lit_ends ['('] _).any fun _ r2 h2 => .skip ?_)
  have b1 := blanks_length r1
  have b2 := blanks_length r2
  refine .bind (sepBy_ends (fun r _ => commaSep_ends r) (fun r hr => paramRule_ends r fun h => by have := hE h; omega)
    fun h => by have := hE h; omega) fun _ r3 h3 => .skip (.bind (lit_ends [')'] _).any fun _ r4 h4 => .skip ?_)
  have b3 := blanks_length r3
  have b4 := blanks_length r4
  refine .bind (.opt (funcType_ends _ fun h => by have := hE h; omega).any) fun _ r5 h5 => .skip ?_
  have b5 := blanks_length r5
  exact .bind (.opt (functionBody_ends _ fun h => by have := hE h; omega).any) fun _ _ _ => semicolonHere_ends _

theorem memberRule_ends (s : Text) (hE : E → 4 * s.length ≤ n) : Ends E 1 s (memberRule F n s) :=
  .orElse (.bind (functionRule_ends s hE) fun _ _ _ => .here) (.bind (fieldRule_ends s hE) fun _ _ _ => .here)

theorem membersRule_ends (s : Text) (hE : E → 4 * s.length ≤ n) : Ends E 1 s (membersRule F n s) := by
  refine .lits (by decide) fun r hr => .skip ?_
  have := blanks_length r
  exact .bind (sepBy_ends (fun r _ => blankSep_ends r) (fun r hr => memberRule_ends r fun h => by have := hE h; omega)
    fun h => by have := hE h; omega) fun _ _ _ => .skip (.bind (lit_ends _ _).any fun _ _ _ => .here)

theorem extendsRule_ends (s : Text) : Ends E 1 s (extendsRule s) :=
  .kws (by decide) fun _ _ => .skip (identRule_ends _).any

theorem classRule_ends (s : Text) (hE : E → 4 * s.length ≤ n) : Ends E 1 s (classRule F n s) := by
  refine .bind (declRule_ends s hE) fun _ r hr => .skip (.bind (.opt (extendsRule_ends _).any) fun _ r' hr' => .skip ?_)
  have h1 := blanks_length r
  have h2 := blanks_length r'
  exact .bind (membersRule_ends _ fun h => by have := hE h; omega).any fun _ _ _ => .here

theorem structRule_ends (s : Text) (hE : E → 4 * s.length ≤ n) : Ends E 1 s (structRule F n s) := by
  refine .bind (declRule_ends s hE) fun _ r hr => .skip ?_
  have h1 := blanks_length r
  exact .bind (membersRule_ends _ fun h => by have := hE h; omega).any fun _ _ _ => .here

theorem enumMember_ends (s : Text) : Ends E 1 s (enumMember F s) := by
  refine .bind (identRule_ends s) fun _ _ _ => .skip (.bind (lit_ends _ _).any fun _ _ _ => .skip
    (.bind (numberRule_ends F _).any fun c _ _ => ?_))
  cases c <;> first | exact .here | exact .fail

theorem enumRule_ends (s : Text) (hE : E → 4 * s.length ≤ n) : Ends E 1 s (enumRule F n s) := by
  refine .bind (declRule_ends s hE) fun _ r hr => .skip (.bind (lit_ends ['{'] _).any fun _ r' hr' => .skip ?_)
  have h1 := blanks_length r
  have h2 := blanks_length r'
  exact .bind (sepBy_ends (fun r _ => commaSep_ends r) (fun r _ => enumMember_ends r) fun h => by have := hE h; omega) fun _ _ _ =>
    .skip (.bind (.opt (lit_ends _ _).any) fun _ _ _ => .skip (.bind (lit_ends _ _).any fun _ _ _ => .here))

theorem entryRule_ends (s : Text) (hE : E → 4 * s.length ≤ n) : Ends E 1 s (entryRule F n s) :=
  .orElse (.bind (functionRule_ends s hE) fun _ _ _ => .here) (.orElse (.bind (classRule_ends s hE) fun _ _ _ => .here)
    (.orElse (.bind (structRule_ends s hE) fun _ _ _ => .here) (.orElse (.bind (fieldRule_ends s hE) fun _ _ _ => .here)
      (.bind (enumRule_ends s hE) fun _ _ _ => .here))))

theorem dotSep_ends (s : Text) : Ends E 0 s (dotSep s) := Ends.bind (lit_ends _ s).any fun _ _ _ => .skipped

theorem pathRule_ends (s : Text) (hE : E → s.length ≤ n) : Ends E 0 s (pathRule n s) :=
  sepBy_ends (fun r _ => dotSep_ends r) (fun r _ => identRule_ends r) hE

theorem importStart_ends (s : Text) (hE : E → 4 * s.length ≤ n) : Ends E 1 s (importStart F n s) := by
  refine .next (annotationsRule_ends s hE) fun _ r hr => .skip (.kws (by decide) fun r' hr' => .skip ?_)
  have h1 := blanks_length r
  have h2 := blanks_length r'
  exact .bind (pathRule_ends _ fun h => by have := hE h; omega) fun _ _ _ => .here

theorem importRule_ends (s : Text) (hE : E → 4 * s.length ≤ n) : Ends E 1 s (importRule F n s) := by
  refine .orElse (.bind (importStart_ends s hE) fun _ r hr => .skip (.bind (lit_ends _ _).any fun _ _ _ => .skip
      (.bind (lit_ends _ _).any fun _ _ _ => .here)))
    (.orElse (.bind (importStart_ends s hE) fun _ r hr => .skip (.bind (lit_ends _ _).any fun _ r' hr' => .skip
      (.bind (lit_ends _ _).any fun _ r'' hr'' => .skip ?_))) (.bind (importStart_ends s hE) fun _ _ _ => .here))
  have h1 := blanks_length r
  have h2 := blanks_length r'
  have h3 := blanks_length r''
  exact .bind (sepBy_ends (fun r _ => commaSep_ends r) (fun r _ => identRule_ends r) fun h => by have := hE h; omega) fun _ _ _ =>
    .skip (.bind (lit_ends _ _).any fun _ _ _ => .here)

theorem modulePath_ends (s : Text) (hE : E → s.length ≤ n) : Ends E 1 s (modulePath n s) := by
  refine .kws (by decide) fun r hr => .skip ?_
  have := blanks_length r
  exact pathRule_ends _ fun h => by have := hE h; omega

theorem moduleRule_ends (s : Text) (hE : E → 4 * s.length ≤ n) : Ends E 0 s (moduleRule F n s) := by
  have h1 := blanks_length s
  refine .skip (.bind (.opt (modulePath_ends _ fun h => by have := hE h; omega).any) fun _ r hr => .skip ?_)
  have h2 := blanks_length r
  refine .bind (sepBy_ends (fun r _ => blankSep_ends r) (fun r hr => importRule_ends r fun h => by have := hE h; omega)
    fun h => by have := hE h; omega) fun _ r' hr' => .skip ?_
  have h3 := blanks_length r'
  exact .bind (sepBy_ends (fun r _ => blankSep_ends r) (fun r hr => entryRule_ends r fun h => by have := hE h; omega)
    fun h => by have := hE h; omega) fun _ _ _ => .skipped

end Redscript
