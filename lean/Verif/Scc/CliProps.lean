import Verif.Bundle.SaveProps
import Verif.Scc.CliModel

/-!
# C83: what the compile command leaves

When the command says that the output was saved, the output reads back as what was compiled, and no other file has changed;
when the build fails, no file has changed.
-/

namespace Redscript

/-! ### Specification -/

/-- What of a value can be in a file: a native function has no place in the sources there. -/
def AnyDefinition.placeless : AnyDefinition → AnyDefinition
  | .Function f => .Function (if f.flags.getLsbD 4 then { f with source := none } else f)
  | v => v

/-- The same for a definition. -/
def Definition.placeless (d : Definition) : Definition := { d with value := d.value.placeless }

/-- The pools that a file represents: there is a placeholder, functions agree with their flags, source files have plain
paths, and no string contains NUL. -/
structure ConstantPool.Writable (p : ConstantPool) : Prop where
  definitions : p.definitions ≠ []
  consistent : ∀ d ∈ p.definitions.drop 1, d.value.placeless.Consistent
  names : ∀ s ∈ p.names.strings, NulFree s
  tweakdbIds : ∀ s ∈ p.tweakdbIds.strings, NulFree s
  resources : ∀ s ∈ p.resources.strings, NulFree s
  strings : ∀ s ∈ p.strings.strings, NulFree s

/-- The second pool has the strings of the first one and, at each index but 0, the same definition, up to the flags that tell
which parts are present and the places of native functions. -/
structure ConstantPool.ReadBack (p p' : ConstantPool) : Prop where
  names : p'.names.strings = p.names.strings
  tweakdbIds : p'.tweakdbIds.strings = p.tweakdbIds.strings
  resources : p'.resources.strings = p.resources.strings
  strings : p'.strings.strings = p.strings.strings
  count : p'.definitions.length = p.definitions.length
  same : ∀ (i : Nat) (d d' : Definition), 0 < i → p.definitions[i]? = some d → p'.definitions[i]? = some d' →
    d.placeless.SameButFlags d'

/-- The compiler returns this for the sources and a bundle, without a fatal diagnostic. -/
structure CompiledAs (E : CliEnv) (opts : CompileOpts) (b : ScriptBundle) (out : UnitOutput) : Prop where
  sources : ∃ ms, opts.src = some (.ok ms) ∧ E.back.compile E.depth E.fuel ms b.pool = .ok out
  fatal : ∀ d ∈ out.diagnostics, d.isFatal = false

/-! ### Native functions -/

theorem encAnyDefinition_placeless (v : AnyDefinition) : encAnyDefinition v.placeless = encAnyDefinition v := by
  cases v with
  | Function f =>
    show encAnyDefinition (.Function (if f.flags.getLsbD 4 then { f with source := none } else f)) = _
    by_cases h : f.flags.getLsbD 4 = true
    · rw [if_pos h]
      show encFunction _ = encFunction _
      have hb : flag FunctionFlags.isNativeBit f.encFlags = true := by
        rw [FunctionDef.encFlags_bits]
        simpa [FunctionFlags.isNativeBit, FunctionFlags.hasBodyBit, FunctionFlags.isOperatorBit, FunctionFlags.hasLocalsBit,
          FunctionFlags.hasParametersBit, FunctionFlags.hasBaseMethodBit, FunctionFlags.hasReturnValueBit, flag] using h
      unfold encFunction
      have e : FunctionDef.encFlags { f with source := none } = f.encFlags := rfl
      simp only [e, hb, Bool.not_true, encIf]
      rfl
    · rw [if_neg h]
  | _ => rfl

theorem placeless_type (v : AnyDefinition) : v.placeless.type_ = v.type_ := by
  cases v <;> rfl

theorem encodeDefinitions_placeless (ds : List Definition) (w : Writer) (off : Nat) (buf : Bytes) :
    encodeDefinitions (ds.map Definition.placeless) w off buf = encodeDefinitions ds w off buf := by
  induction ds generalizing w off buf with
  | nil => rfl
  | cons d ds ih =>
    rw [List.map_cons]
    unfold encodeDefinitions
    have e : encAnyDefinition d.placeless.value = encAnyDefinition d.value := encAnyDefinition_placeless _
    have t : d.placeless.value.type_ = d.value.type_ := placeless_type _
    rw [e]
    cases encAnyDefinition d.value with
    | error e => rfl
    | ok b =>
      simp only [t]
      exact ih _ _ _

/-- Without the places of native functions. -/
def ConstantPool.placeless (p : ConstantPool) : ConstantPool := { p with definitions := p.definitions.map Definition.placeless }

theorem save_placeless (crc : Bytes → BitVec 32) (h : Header) (p : ConstantPool) (w : Writer) :
    ScriptBundle.save crc ⟨h, p.placeless⟩ w = ScriptBundle.save crc ⟨h, p⟩ w := by
  unfold ScriptBundle.save encodePool
  simp only [ConstantPool.placeless, ← List.map_drop, encodeDefinitions_placeless, List.length_map]

theorem encodable_of_encoded {ds : List Definition} {w : Writer} {off : Nat} {buf : Bytes} {r} (h : encodeDefinitions ds w off buf = .ok r) :
    ∀ d ∈ ds, ∃ bs, encAnyDefinition d.value = .ok bs := by
  induction ds generalizing w off buf with
  | nil => intro d hd; cases hd
  | cons x xs ih =>
    intro d hd
    unfold encodeDefinitions at h
    split at h
    · cases h
    · next b hb =>
      rcases List.mem_cons.1 hd with rfl | hd
      · exact ⟨b, hb⟩
      · exact ih h d hd

theorem encodable_of_saved {crc : Bytes → BitVec 32} {b : ScriptBundle} {w w' : Writer} (h : b.save crc w = .ok w') :
    ∀ d ∈ b.pool.definitions.drop 1, ∃ bs, encAnyDefinition d.value = .ok bs := by
  unfold ScriptBundle.save at h
  split at h
  · cases h
  · next hp =>
    unfold encodePool at hp
    dsimp only at hp
    split at hp
    · cases hp
    split at hp
    · cases hp
    split at hp
    · cases hp
    split at hp
    · cases hp
    split at hp
    · cases hp
    · next he => exact encodable_of_encoded he

theorem readBack_of_saved {crc : Bytes → BitVec 32} {h : Header} {p : ConstantPool} {w w' : Writer} (hw : p.Writable)
    (hs : ScriptBundle.save crc ⟨h, p⟩ w = .ok w') (hl : w'.buf.length < 2 ^ 32) :
    ∃ b', ScriptBundle.load w'.buf = .ok b' ∧ p.ReadBack b'.pool ∧ b'.header.version = h.version ∧ b'.header.flags = h.flags ∧
      b'.header.timestamp = h.timestamp := by
  rw [← save_placeless] at hs
  have he := encodable_of_saved hs
  have sv : Saveable p.placeless := by
    refine ⟨fun e => hw.definitions (List.map_eq_nil_iff.1 e), fun d hd => ?_, he, hw.names, hw.tweakdbIds, hw.resources, hw.strings⟩
    rw [ConstantPool.placeless, ← List.map_drop] at hd
    obtain ⟨x, hx, rfl⟩ := List.mem_map.1 hd
    exact hw.consistent x hx
  obtain ⟨w2, k1, k2⟩ := C09_save_load crc ⟨h, p.placeless⟩ sv w
  rw [hs] at k1
  cases k1
  obtain ⟨b', k3, n1, n2, n3, n4, n5, -, n6, n7, n8, n9, -⟩ := k2 hl
  refine ⟨b', k3, ⟨n1, n2, n3, n4, by rw [n5]; simp [ConstantPool.placeless], fun i d d' hi hd hd' => ?_⟩, n7, n8, n9⟩
  exact n6 i _ d' hi (by simp [ConstantPool.placeless, hd]) hd'

/-! ### The compiler -/

theorem compiledAs_of {E : CliEnv} {opts : CompileOpts} {b : ScriptBundle} {parsed} {out : UnitOutput} (hp : opts.src = some parsed)
    (h : E.back.compileAndReport E.depth E.fuel parsed b.pool = .ok out) : CompiledAs E opts b out := by
  unfold Back.compileAndReport at h
  split at h
  · split at h <;> cases h
  · next o ho =>
    split at h
    · cases h
    · next hr =>
      cases h
      unfold Back.compileFiles at ho
      split at ho
      · cases ho
      · next ms =>
        refine ⟨⟨ms, hp, ho⟩, fun d hd => ?_⟩
        unfold Redscript.compileAndReport at hr
        simp only at hr
        split at hr
        · cases hr
        · next hf =>
          rw [List.any_eq_true] at hf
          cases hd' : d.isFatal with
          | false => rfl
          | true => exact absurd ⟨d, hd, hd'⟩ hf

theorem report_of_compiledAs {E : CliEnv} {opts : CompileOpts} {b : ScriptBundle} {out : UnitOutput} (h : CompiledAs E opts b out) :
    ∃ parsed, opts.src = some parsed ∧ E.back.compileAndReport E.depth E.fuel parsed b.pool = .ok out := by
  obtain ⟨⟨ms, h1, h2⟩, h3⟩ := h
  refine ⟨_, h1, ?_⟩
  have hf : out.diagnostics.any Diagnostic.isFatal = false := by
    rw [List.any_eq_false]
    intro d hd
    rw [h3 d hd]
    decide
  simp [Back.compileAndReport, Back.compileFiles, h2, Redscript.compileAndReport, hf]

theorem ofPool_of_compiledAs {E : CliEnv} {opts : CompileOpts} {b : ScriptBundle} {out : UnitOutput} (h : CompiledAs E opts b out) :
    ∃ s, DeclState.ofPool b.pool = some s := by
  obtain ⟨⟨ms, -, h2⟩, -⟩ := h
  unfold Back.compile at h2
  split at h2
  · cases h2
  · next s hs => exact ⟨s, hs⟩

/-! ### The properties -/

/-- C83: when the command says that the output was saved, the bundle was read and its sources compiled without a fatal
diagnostic; the output reads back as what was compiled, with the version, flags and timestamp of the bundle, if it is below
4 GiB and what was compiled can be in a file at all; the command exits with success and every other file is as it was.
Missing: that what is compiled can be in a file, which is false of strings with NUL. -/
theorem C83_saved_output_reads_back_partial {E : CliEnv} {opts : CompileOpts} {d : CliDisk} (h : (cliCompile E opts d).says = true) :
    ∃ file b out new, d opts.bundle = some file ∧ ScriptBundle.load file = .ok b ∧ CompiledAs E opts b out ∧
      (cliCompile E opts d).exit = true ∧ (cliCompile E opts d).disk opts.output = some new ∧
      (∀ path, path ≠ opts.output → (cliCompile E opts d).disk path = d path) ∧
      (out.pool.Writable → new.length < 2 ^ 32 → ∃ b', ScriptBundle.load new = .ok b' ∧ out.pool.ReadBack b'.pool ∧
        b'.header.version = b.header.version ∧ b'.header.flags = b.header.flags ∧ b'.header.timestamp = b.header.timestamp) := by
  unfold cliCompile at h ⊢
  split at h
  · cases h
  · next b hb =>
    split at h
    · cases h
    · next parsed hsrc =>
      split at h
      · cases h
      · next s hs =>
        split at h
        · cases h
        · next out hout =>
          split at h
          · next hc =>
            split at h
            · cases h
            · next w hw =>
              unfold loadBundle at hb
              split at hb
              · cases hb
              · next file hfile =>
                split at hb
                · next b0 hl =>
                  cases hb
                  refine ⟨file, b, out, w.buf, hfile, hl, compiledAs_of hsrc hout, ?_⟩
                  simp only [hc, if_true, CliDisk.write]
                  exact ⟨trivial, trivial, fun path hp => if_neg hp, fun a1 a2 => readBack_of_saved a1 hw a2⟩
                · cases hb
          · cases h

/-- C83: whenever the sources cannot be read or parsed, the bundle cannot be read, the compiler fails, or it finds something
fatal, the command changes no file and does not say that it saved anything. -/
theorem C83_failed_build_changes_nothing {E : CliEnv} {opts : CompileOpts} {d : CliDisk}
    (h : ∀ file b out, d opts.bundle = some file → ScriptBundle.load file = .ok b → ¬ CompiledAs E opts b out) :
    (cliCompile E opts d).disk = d ∧ (cliCompile E opts d).says = false := by
  unfold cliCompile
  split
  · exact ⟨rfl, rfl⟩
  · next b hb =>
    split
    · exact ⟨rfl, rfl⟩
    · next parsed hsrc =>
      split
      · exact ⟨rfl, rfl⟩
      · next s hs =>
        split
        · exact ⟨rfl, rfl⟩
        · next out hout =>
          exfalso
          unfold loadBundle at hb
          split at hb
          · cases hb
          · next file hfile =>
            split at hb
            · next b0 hl =>
              cases hb
              exact h file b out hfile hl (compiledAs_of hsrc hout)
            · cases hb

/-- C83: a bundle that is read, sources that compile and an output that can be created are enough for the output to be saved,
unless the compiled bundle cannot be written. -/
theorem C83_compiled_sources_are_saved {E : CliEnv} {opts : CompileOpts} {d : CliDisk} {file : Bytes} {b : ScriptBundle} {out : UnitOutput}
    (h1 : d opts.bundle = some file) (h2 : ScriptBundle.load file = .ok b) (h3 : CompiledAs E opts b out) (h4 : E.creatable = true)
    (h5 : ∀ v ∈ out.pool.definitions.drop 1, ∃ bs, encAnyDefinition v.value = .ok bs) (h6 : out.pool.Writable) :
    (cliCompile E opts d).says = true := by
  obtain ⟨parsed, hsrc, hout⟩ := report_of_compiledAs h3
  obtain ⟨s, hs⟩ := ofPool_of_compiledAs h3
  have hlb : loadBundle d opts.bundle = some b := by simp [loadBundle, h1, h2]
  have sv : Saveable out.pool.placeless := by
    refine ⟨fun e => h6.definitions (List.map_eq_nil_iff.1 e), fun x hx => ?_, fun x hx => ?_, h6.names, h6.tweakdbIds, h6.resources, h6.strings⟩
    · rw [ConstantPool.placeless, ← List.map_drop] at hx
      obtain ⟨y, hy, rfl⟩ := List.mem_map.1 hx
      exact h6.consistent y hy
    · rw [ConstantPool.placeless, ← List.map_drop] at hx
      obtain ⟨y, hy, rfl⟩ := List.mem_map.1 hx
      obtain ⟨bs, hbs⟩ := h5 y hy
      exact ⟨bs, (encAnyDefinition_placeless _).trans hbs⟩
  obtain ⟨w, k, -⟩ := C09_save_load E.crc ⟨b.header, out.pool.placeless⟩ sv ⟨[], 0⟩
  rw [save_placeless] at k
  unfold cliCompile
  simp only [hlb, hsrc, hs, hout, h4, if_true, k]

/-- C83: no run of the command changes a file other than the output. -/
theorem C83_only_the_output_changes (E : CliEnv) (opts : CompileOpts) (d : CliDisk) (path : String) (h : path ≠ opts.output) :
    (cliCompile E opts d).disk path = d path := by
  unfold cliCompile
  repeat' split
  all_goals first | rfl | exact if_neg h

/-- C83: linting changes no file, and it says that it was successful only if the bundle was read and the sources compile
without a fatal diagnostic, so that compiling the same would. -/
theorem C83_lint_agrees_with_compile {E : CliEnv} {opts : CompileOpts} {d : CliDisk} :
    (cliLint E opts.src (some opts.bundle) d).disk = d ∧
    ((cliLint E opts.src (some opts.bundle) d).says = true ↔
      ∃ file b out, d opts.bundle = some file ∧ ScriptBundle.load file = .ok b ∧ CompiledAs E opts b out) := by
  constructor
  · unfold cliLint
    repeat' split
    all_goals rfl
  · constructor
    · intro h
      unfold cliLint at h
      split at h
      · cases h
      · next path hpath =>
        cases hpath
        split at h
        · cases h
        · next b hb =>
          split at h
          · cases h
          · next parsed hsrc =>
            split at h
            · cases h
            · split at h
              · cases h
              · next out hout =>
                unfold loadBundle at hb
                split at hb
                · cases hb
                · next file hfile =>
                  split at hb
                  · next b0 hl =>
                    cases hb
                    exact ⟨file, b, out, hfile, hl, compiledAs_of hsrc hout⟩
                  · cases hb
    · rintro ⟨file, b, out, h1, h2, h3⟩
      obtain ⟨parsed, hsrc, hout⟩ := report_of_compiledAs h3
      obtain ⟨s, hs⟩ := ofPool_of_compiledAs h3
      have hlb : loadBundle d opts.bundle = some b := by simp [loadBundle, h1, h2]
      unfold cliLint
      simp only [hlb, hsrc, hs, hout]

end Redscript
