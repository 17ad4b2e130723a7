import Verif.Unit.CompileExample
import Verif.Unit.SourceRefs

/-!
# C81: an example

A native class with a method between two fields, an enum, a field and a method added to a class, and a wrapper.
-/

namespace Redscript
namespace DeclDemo

def refMember (f : FunctionSource) : MemberSource := .Function { f with body := some [.Return none] }

def referred : List SourceModule := [
  ⟨some ["A".toList], [], [
    .Class ⟨{ decl [] "New" [.Native] with loc := some ("a.reds", 3) }, some "Sub".toList, [.Field ⟨decl [] "c", int, none⟩, refMember (func [] "m"), .Field ⟨decl [] "d" [.Native], int, none⟩]⟩,
    returning (func [ann .WrapMethod "Base"] "m")]⟩,
  ⟨none, [], [
    .Enum ⟨decl [] "E", [("x".toList, 3)]⟩,
    .GlobalLet ⟨decl [ann .AddField "Base"] "b", int, none⟩,
    returning (func [ann .AddMethod "Base"] "k" [⟨[], "x".toList, int⟩]),
    returning (func [] "h")]⟩]

/-- A check of names, of members as well. -/
def namesB (ms : List SourceModule) : Bool := ms.all (fun m => m.entries.all fun e => match e with
  | .Function f => decide ('$' ∉ f.sig ∧ f.sig ≠ "None".toList)
  | .Class c | .Struct c => c.members.all (fun x => match x with
    | .Function f => decide ('$' ∉ f.sig)
    | .Field _ => true)
  | _ => true)

theorem plain_of_names {ms : List SourceModule} (h : namesB ms = true) : ∀ m ∈ ms, ∀ e ∈ m.entries, e.Plain := by
  intro m hm e he
  have h1 := List.all_eq_true.1 (List.all_eq_true.1 h m hm) e he
  cases e with
  | Function f =>
    have h2 : '$' ∉ f.sig ∧ f.sig ≠ "None".toList := of_decide_eq_true h1
    exact h2
  | Class c => exact fun f hf => of_decide_eq_true (List.all_eq_true.1 h1 _ hf)
  | Struct c => exact fun f hf => of_decide_eq_true (List.all_eq_true.1 h1 _ hf)
  | _ => trivial

theorem cleanly_of_names {ms : List SourceModule} (hp : namesB ms = true) (h0 : (declareModules 5 false ms start).1.toOption = some ())
    (hb : bodiesB (after ms).bodies = true) (c : classesB (swapped back ms) = true) (c' : classesB (after ms).pool = true)
    (h1 : (back.compileRest (after ms)).toOption.isSome = true) (h2 : (back.installAll (rest back ms).1 (rest back ms).2.2).toOption.isSome = true)
    (h3 : (swapAll back.ord (back.drain (after ms).proxies) (installed back ms)).toOption.isSome = true) (h4 : (rest back ms).2.1.length = 0)
    (h5 : (swapped back ms).definitions.length < 2 ^ 32) (h6 : (after ms).pool.names.strings.length + (back.drain (after ms).wrappers).length + 1 < 2 ^ 32) :
    ∃ fuel out, CleanCompile back 5 fuel ms pool (after ms) out := by
  obtain ⟨N, hN⟩ := compiled_of h0 c h1 h2 h3 h4
  obtain ⟨refs, hc⟩ := hN N (Nat.le_refl _)
  exact ⟨N, _, names_reachable, pool_sound, pool_locals, pool_shape, plain_of_names hp, ⟨start, start_eq, runs_of h0⟩, back_laws hb, hc,
    (fun d hd => by cases hd), h5, h6, (classes_of c').1, (classes_of c').2.1⟩

theorem referred_compiled : ∃ fuel out, CleanCompile back 5 fuel referred pool (after referred) out :=
  cleanly_of_names (by decide +kernel) (by decide +kernel) (by decide +kernel) (by decide +kernel) (by decide +kernel) (by decide +kernel) (by decide +kernel)
    (by decide +kernel) (by decide +kernel) (by decide +kernel) (by decide +kernel)

/-- All that is told about the sources, in order. -/
def referredTold : List Told :=
  (referred.flatMap (·.enabled (referred.filterMap (·.path)))).flatMap fun e => e.2.told (referred.filterMap (·.path)) (e.1.path.getD [])

theorem each2_get {R : α → β → Prop} {as : List α} {bs : List β} (h : Each2 R as bs) : ∀ {n : Nat} {a : α}, as[n]? = some a → ∃ b, bs[n]? = some b ∧ R a b := by
  induction h with
  | nil => intro n a h; cases h
  | cons h _ ih =>
    intro n a ha
    cases n with
    | zero => cases ha; exact ⟨_, rfl, h⟩
    | succ n => exact ih ha

/-- Nine references are told. The third is a native field, and the class comes after its three members, with the file and the line of
its declaration. -/
example : ∃ fuel out, CleanCompile back 5 fuel referred pool (after referred) out ∧ out.refs.length = 9 ∧
    (∃ r, out.refs[3]? = some r ∧ sourceRefType out.pool r.index = .Class ∧ sourceRefPath r = "a.reds" ∧ sourceRefLine r = 3) ∧
    ∃ r, out.refs[2]? = some r ∧ sourceRefType out.pool r.index = .Field ∧ sourceRefIsNative out.pool r.index = true := by
  obtain ⟨fuel, out, h⟩ := referred_compiled
  have h1 : Each2 (Told.By out.pool) referredTold out.refs := (C81_references_tell_the_declarations h).2
  have hk : referredTold.map (fun t => (t.kind, t.native, t.place)) =
      [(.Field, false, none), (.Function, false, none), (.Field, true, none), (.Class, true, some ("a.reds", 3)), (.Function, false, none), (.Enum, false, none),
        (.Field, false, none), (.Function, false, none), (.Function, false, none)] := by decide +kernel
  have h9 : out.refs.length = 9 := by rw [← h1.length_eq]; simpa using congrArg List.length hk
  refine ⟨fuel, out, h, h9, ?_, ?_⟩
  · have := congrArg (fun l => l[3]?) hk
    simp only [List.getElem?_map, List.getElem?_cons_succ, List.getElem?_cons_zero, Option.map_eq_some_iff, Prod.mk.injEq] at this
    obtain ⟨t, ht, k1, _, k3⟩ := this
    obtain ⟨r, hr, hb⟩ := each2_get h1 ht
    exact ⟨r, hr, hb.kind.trans k1, hb.place _ _ k3⟩
  · have := congrArg (fun l => l[2]?) hk
    simp only [List.getElem?_map, List.getElem?_cons_succ, List.getElem?_cons_zero, Option.map_eq_some_iff, Prod.mk.injEq] at this
    obtain ⟨t, ht, k1, k2, _⟩ := this
    obtain ⟨r, hr, hb⟩ := each2_get h1 ht
    exact ⟨r, hr, hb.kind.trans k1, hb.native.trans k2⟩

end DeclDemo
end Redscript
