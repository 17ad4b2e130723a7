import Verif.Bytecode.Cursor
import Verif.Decompiler.PrintModel

/-!
# The bytecode listing (model)

Model of the part of `write_function_body` (decompiler/src/print.rs:214-224) that `decompile --mode bytecode` uses. The locals
before the code are left out (they are printed as in Decompiler/DeclPrintModel).
-/

namespace Redscript

/-- `i16` in decimal, as in `{:?}` of an `Offset` (core/src/bytecode.rs:988-991, derived). -/
def showOffset (o : Offset) : Text :=
  "offset { value: ".toList ++ (if o.toInt < 0 then '-' :: Nat.toDigits 10 o.toInt.natAbs else Nat.toDigits 10 o.toInt.natAbs) ++ " }".toList

/-- `{:?}` of a `PoolIndex` (core/src/bundle.rs:685-689) in lower case. -/
def showIdx (i : Idx) : Text := "poolindex(".toList ++ Nat.toDigits 10 i.toNat ++ ")".toList

/-- The operands of a call (core/src/bytecode.rs:50-51) in `{:?}`, in lower case. -/
def showCall (a : Offset) (b : BitVec 16) (c : Idx) (d : BitVec 16) : Text :=
  showOffset a ++ ", ".toList ++ Nat.toDigits 10 b.toNat ++ ", ".toList ++ showIdx c ++ ", ".toList ++ Nat.toDigits 10 d.toNat

/-- `{:?}` of an instruction in lower case (decompiler/src/print.rs:220; the derived `Debug` of core/src/bytecode.rs:12-118) for
those that have places as operands; `other` is the text of all others. -/
def showInstr (other : Instr Offset → Text) : Instr Offset → Text
  | .Jump a => "jump(".toList ++ showOffset a ++ ")".toList
  | .JumpIfFalse a => "jumpiffalse(".toList ++ showOffset a ++ ")".toList
  | .Skip a => "skip(".toList ++ showOffset a ++ ")".toList
  | .Context a => "context(".toList ++ showOffset a ++ ")".toList
  | .SwitchLabel a b => "switchlabel(".toList ++ showOffset a ++ ", ".toList ++ showOffset b ++ ")".toList
  | .Conditional a b => "conditional(".toList ++ showOffset a ++ ", ".toList ++ showOffset b ++ ")".toList
  | .Switch a b => "switch(".toList ++ showIdx a ++ ", ".toList ++ showOffset b ++ ")".toList
  | .InvokeStatic a b c d => "invokestatic(".toList ++ showCall a b c d ++ ")".toList
  | .InvokeVirtual a b c d => "invokevirtual(".toList ++ showCall a b c d ++ ")".toList
  | i => other i

/-- A line of the listing (decompiler/src/print.rs:221-222), without its end. -/
def listingLine (depth : Nat) (other : Instr Offset → Text) (x : Location × Instr Offset) : Text :=
  indent (depth + 1) ++ Nat.toDigits 10 x.1.toNat ++ ": ".toList ++ showInstr other x.2

/-- The listing of code (decompiler/src/print.rs:219-223). -/
def codeListing (depth : Nat) (other : Instr Offset → Text) (code : List (Instr Offset)) : Text :=
  (CodeIter.collect 0 code).flatMap fun x => listingLine depth other x ++ ['\n']

end Redscript
