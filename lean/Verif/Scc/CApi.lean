import Verif.Scc.PathHistory

/-!
# C92: settings over the C interface, and the exit code of `scc`

Model of the functions that make the settings of a run from strings in memory (scc/lib/src/api.rs:12-50) and of `main` of the command
line tool (scc/cli/src/main.rs:14-77, 118-129), and their properties.
-/

namespace Redscript

/-! ### Model -/

/-- `CStr::from_ptr` (used in scc/lib/src/api.rs:18, 31, 40, 50): the bytes up to the first zero byte; `none` when there is none within
the fuel. -/
def cstrRead (m : Memory) : Nat → Nat → Option Bytes
  | 0, _ => none
  | n + 1, p => if m p = 0 then some [] else (cstrRead m n (p + 1)).map (m p :: ·)

/-- `to_string_lossy` (used in scc/lib/src/api.rs:18, 31, 40, 50); what is made of bytes that are not UTF-8 is a parameter. -/
def toStringLossy (lossy : Bytes → Text) (bs : Bytes) : Text :=
  match strOfBytes bs with
  | .ok s => s.toList
  | .error _ => lossy bs

/-- `PathBuf::from(CStr::from_ptr(path).to_string_lossy().as_ref())` (scc/lib/src/api.rs:18, 31, 40, 50); `parse` is `PathBuf::from`. -/
def pathAt (parse : Text → PathParts) (lossy : Bytes → Text) (fuel : Nat) (m : Memory) (p : Nat) : Option PathParts :=
  (cstrRead m fuel p).map fun bs => parse (toStringLossy lossy bs)

/-- A call that changes settings, with the memory at the time of the call and the pointer (scc/lib/src/api.rs:28-51). -/
inductive SettingsCall where
  | customCache (m : Memory) (p : Nat)
  | outputCache (m : Memory) (p : Nat)
  | scriptPath (m : Memory) (p : Nat)

/-- `scc_settings_new` (scc/lib/src/api.rs:15-23). -/
def settingsNew (parse : Text → PathParts) (lossy : Bytes → Text) (fuel : Nat) (m : Memory) (p : Nat) : Option SccSettings :=
  (pathAt parse lossy fuel m p).map fun r6 => ⟨r6, none, none, []⟩

/-- `scc_settings_set_custom_cache_file`, `scc_settings_set_output_cache_file` and `scc_settings_add_script_path`
(scc/lib/src/api.rs:29-51). -/
def SccSettings.call (parse : Text → PathParts) (lossy : Bytes → Text) (fuel : Nat) (s : SccSettings) : SettingsCall → Option SccSettings
  | .customCache m p => (pathAt parse lossy fuel m p).map fun x => { s with customCache := some x }
  | .outputCache m p => (pathAt parse lossy fuel m p).map fun x => { s with outputCache := some x }
  | .scriptPath m p => (pathAt parse lossy fuel m p).map fun x => { s with additional := s.additional ++ [x] }

/-- Calls one after another (scc/lib/src/api.rs:29-51). -/
def SccSettings.calls (parse : Text → PathParts) (lossy : Bytes → Text) (fuel : Nat) : SccSettings → List SettingsCall → Option SccSettings
  | s, [] => some s
  | s, c :: cs =>
    match s.call parse lossy fuel c with
    | none => none
    | some s => SccSettings.calls parse lossy fuel s cs

/-- The results of `Opts::load` (scc/cli/src/main.rs:15-31). -/
inductive ParsedArgs where
  | opts (o : LaunchOpts)
  | help
  | wrong

/-- `scc_get_success(..).is_some()` (scc/lib/src/api.rs:60-66, scc/cli/src/main.rs:124-125). -/
def RunResult.isSuccess : RunResult → Bool
  | .success _ _ => true
  | .failed => false

/-- `main` of `scc` (scc/cli/src/main.rs:14-77, 118-129): the files and whether the exit code is that of success; `none` is a panic.
`library` tells whether the library is loaded, `message` is what is written to the log when it is not. An error before the run
leaves the files, as then nothing could be copied. The log of the library is left out. -/
def sccMain (parse : Text → PathParts) (library : Bool) (message : Bytes) (times : PathParts → BitVec 128) (a : RunArgs) (d : PathDisk) :
    ParsedArgs → Option (PathDisk × Bool)
  | .help => some (d, true)
  | .wrong => some (d, false)
  | .opts o =>
    match o.settings parse with
    | none => none
    | some s =>
      if library then
        match s.launch times a d with
        | none => some (d, false)
        | some (d', r) => some (d', r.isSuccess)
      else some (d.store (s.r6Dir ++ ["logs".toList, "scc_rCURRENT.log".toList]) (some message), false)

/-! ### Specification -/

/-- Memory has a text at an address, in UTF-8 with a zero byte after it. -/
def HoldsText (m : Memory) (p : Nat) (t : Text) : Prop :=
  '\x00' ∉ t ∧ (∀ i b, (strBytes (String.ofList t))[i]? = some b → m (p + i) = b) ∧ m (p + (strBytes (String.ofList t)).length) = 0

/-- What the caller asks for. -/
inductive SettingsAsk where
  | customCache (t : Text)
  | outputCache (t : Text)
  | scriptPath (t : Text)

/-- The text of a call is in memory when it is made. -/
inductive AsksFor : SettingsCall → SettingsAsk → Prop
  | customCache {m p t} : HoldsText m p t → AsksFor (.customCache m p) (.customCache t)
  | outputCache {m p t} : HoldsText m p t → AsksFor (.outputCache m p) (.outputCache t)
  | scriptPath {m p t} : HoldsText m p t → AsksFor (.scriptPath m p) (.scriptPath t)

/-- The texts of one kind. -/
def SettingsAsk.custom? : SettingsAsk → Option Text | .customCache t => some t | _ => none
def SettingsAsk.output? : SettingsAsk → Option Text | .outputCache t => some t | _ => none
def SettingsAsk.script? : SettingsAsk → Option Text | .scriptPath t => some t | _ => none

/-- The length of the text of what is asked for, in bytes. -/
def SettingsAsk.size : SettingsAsk → Nat
  | .customCache t => (strBytes (String.ofList t)).length
  | .outputCache t => (strBytes (String.ofList t)).length
  | .scriptPath t => (strBytes (String.ofList t)).length

/-! ### Proofs -/

theorem strBytes_ofList (t : Text) : strBytes (String.ofList t) = (t.flatMap String.utf8EncodeChar).map UInt8.toBitVec := by
  simp [strBytes, List.utf8Encode]

theorem uint8_ofNat_ne_zero {n : Nat} (h : 0 < n) (h' : n < 256) : (0 : UInt8) ≠ UInt8.ofNat n := by
  intro e
  have e := congrArg UInt8.toNat e
  rw [UInt8.toNat_ofNat', Nat.mod_eq_of_lt h'] at e
  exact absurd e (by simp; omega)

theorem encodeChar_ne_zero {c : Char} (h : c ≠ '\x00') : (0 : UInt8) ∉ String.utf8EncodeChar c := by
  have hv : 0 < c.val.toNat := by
    refine Nat.pos_of_ne_zero fun e => h ?_
    apply Char.ext
    apply UInt32.toNat_inj.1
    rw [e]
    rfl
  unfold String.utf8EncodeChar
  generalize c.val.toNat = v at hv
  simp only
  split
  · simp only [List.mem_singleton]
    exact uint8_ofNat_ne_zero hv (by omega)
  · split
    · simp only [List.mem_cons, List.not_mem_nil, or_false, not_or]
      exact ⟨uint8_ofNat_ne_zero (by omega) (by omega), uint8_ofNat_ne_zero (by omega) (by omega)⟩
    · split
      · simp only [List.mem_cons, List.not_mem_nil, or_false, not_or]
        exact ⟨uint8_ofNat_ne_zero (by omega) (by omega), uint8_ofNat_ne_zero (by omega) (by omega), uint8_ofNat_ne_zero (by omega) (by omega)⟩
      · simp only [List.mem_cons, List.not_mem_nil, or_false, not_or]
        exact ⟨uint8_ofNat_ne_zero (by omega) (by omega), uint8_ofNat_ne_zero (by omega) (by omega), uint8_ofNat_ne_zero (by omega) (by omega),
          uint8_ofNat_ne_zero (by omega) (by omega)⟩

theorem text_no_zero {t : Text} (h : '\x00' ∉ t) : (0 : Byte) ∉ strBytes (String.ofList t) := by
  rw [strBytes_ofList]
  intro h0
  obtain ⟨b, hb, e⟩ := List.mem_map.1 h0
  obtain ⟨c, hc, hb⟩ := List.mem_flatMap.1 hb
  have : b = 0 := UInt8.toBitVec_inj.1 e
  subst this
  exact encodeChar_ne_zero (fun e => h (e ▸ hc)) hb

theorem cstrRead_of {m : Memory} {bs : Bytes} {p fuel : Nat} (h0 : (0 : Byte) ∉ bs) (h : ∀ (i : Nat) b, bs[i]? = some b → m (p + i) = b)
    (hz : m (p + bs.length) = 0) (hf : bs.length < fuel) : cstrRead m fuel p = some bs := by
  induction bs generalizing p fuel with
  | nil =>
    cases fuel with
    | zero => cases hf
    | succ n => exact if_pos hz
  | cons b bs ih =>
    cases fuel with
    | zero => cases hf
    | succ n =>
      have hb : m p = b := h 0 b rfl
      have hne : m p ≠ 0 := fun e => h0 (by rw [← e, hb]; exact List.mem_cons_self ..)
      have h1 : ∀ (i : Nat) x, bs[i]? = some x → m (p + 1 + i) = x := fun i x hx => by
        rw [Nat.add_assoc, Nat.add_comm 1]
        exact h (i + 1) x hx
      have h2 : m (p + 1 + bs.length) = 0 := by
        rw [Nat.add_assoc, Nat.add_comm 1]
        exact hz
      rw [cstrRead, if_neg hne, ih (fun e => h0 (List.mem_cons_of_mem _ e)) h1 h2 (by simpa using hf), hb]
      rfl

theorem pathAt_of {parse : Text → PathParts} {lossy : Bytes → Text} {m : Memory} {p fuel : Nat} {t : Text} (h : HoldsText m p t)
    (hf : (strBytes (String.ofList t)).length < fuel) : pathAt parse lossy fuel m p = some (parse t) := by
  unfold pathAt
  rw [cstrRead_of (text_no_zero h.1) h.2.1 h.2.2 hf]
  simp only [Option.map_some, toStringLossy, strOfBytes_strBytes, String.toList_ofList]

theorem calls_of {parse : Text → PathParts} {lossy : Bytes → Text} {fuel : Nat} {l : List (SettingsCall × SettingsAsk)}
    (h : ∀ x ∈ l, AsksFor x.1 x.2) (hf : ∀ x ∈ l, x.2.size < fuel) (s : SccSettings) :
    s.calls parse lossy fuel (l.map (·.1)) = some ⟨s.r6Dir, (((l.map (·.2)).filterMap (·.custom?)).getLast?.map parse).or s.customCache,
      (((l.map (·.2)).filterMap (·.output?)).getLast?.map parse).or s.outputCache, s.additional ++ ((l.map (·.2)).filterMap (·.script?)).map parse⟩ := by
  induction l generalizing s with
  | nil => simp [SccSettings.calls]
  | cons cx l ih =>
    obtain ⟨c, x⟩ := cx
    have hx : x.size < fuel := hf _ (List.mem_cons_self ..)
    have h1 : AsksFor c x := h _ (List.mem_cons_self ..)
    have ih := fun s => ih (fun y hy => h y (List.mem_cons_of_mem _ hy)) (fun y hy => hf y (List.mem_cons_of_mem _ hy)) s
    have last : ∀ (t : Text) (l : List Text) (o : Option PathParts),
        ((t :: l).getLast?.map parse).or o = (l.getLast?.map parse).or (some (parse t)) := by
      intro t l o
      cases hl : l.getLast? with
      | none => rw [List.getLast?_eq_none_iff] at hl; subst hl; rfl
      | some y => rw [List.getLast?_cons, hl]; rfl
    cases h1 with
    | @customCache m p t ht =>
      have e : s.call parse lossy fuel (.customCache m p) = some { s with customCache := some (parse t) } := by
        simp only [SccSettings.call]
        rw [pathAt_of (parse := parse) (lossy := lossy) ht hx]
        rfl
      rw [List.map_cons, List.map_cons, SccSettings.calls, e]
      simp only [ih, List.filterMap_cons, SettingsAsk.custom?, SettingsAsk.output?, SettingsAsk.script?, last]
    | @outputCache m p t ht =>
      have e : s.call parse lossy fuel (.outputCache m p) = some { s with outputCache := some (parse t) } := by
        simp only [SccSettings.call]
        rw [pathAt_of (parse := parse) (lossy := lossy) ht hx]
        rfl
      rw [List.map_cons, List.map_cons, SccSettings.calls, e]
      simp only [ih, List.filterMap_cons, SettingsAsk.custom?, SettingsAsk.output?, SettingsAsk.script?, last]
    | @scriptPath m p t ht =>
      have e : s.call parse lossy fuel (.scriptPath m p) = some { s with additional := s.additional ++ [parse t] } := by
        simp only [SccSettings.call]
        rw [pathAt_of (parse := parse) (lossy := lossy) ht hx]
        rfl
      rw [List.map_cons, List.map_cons, SccSettings.calls, e]
      simp only [ih, List.filterMap_cons, SettingsAsk.custom?, SettingsAsk.output?, SettingsAsk.script?, List.map_cons, List.append_assoc,
        List.singleton_append]

/-- C92: settings made over the C interface, by any calls in any order with texts that need only be in memory during the call, are those
asked for: the directory, the cache and the output that were set last, and all script paths in the order they were added. -/
theorem C92_settings_are_those_asked_for {parse : Text → PathParts} {lossy : Bytes → Text} {fuel : Nat} {m : Memory} {p : Nat} {r6 : Text}
    {l : List (SettingsCall × SettingsAsk)} (hr : HoldsText m p r6) (h : ∀ x ∈ l, AsksFor x.1 x.2)
    (hf : (strBytes (String.ofList r6)).length < fuel ∧ ∀ x ∈ l, x.2.size < fuel) :
    ∃ s s', settingsNew parse lossy fuel m p = some s ∧ s.calls parse lossy fuel (l.map (·.1)) = some s' ∧ s'.r6Dir = parse r6 ∧
      s'.customCache = ((l.map (·.2)).filterMap (·.custom?)).getLast?.map parse ∧ s'.outputCache = ((l.map (·.2)).filterMap (·.output?)).getLast?.map parse ∧
      s'.additional = ((l.map (·.2)).filterMap (·.script?)).map parse := by
  refine ⟨_, _, by unfold settingsNew; rw [pathAt_of hr hf.1]; rfl, calls_of h hf.2 _, rfl, ?_, ?_, rfl⟩
  · exact Option.or_none
  · exact Option.or_none

/-- A launch that succeeds saved what the scripts make of some bundle. -/
theorem launch_success {s : SccSettings} {times : PathParts → BitVec 128} {a : RunArgs} {d d' : PathDisk} {input output : Bytes}
    (hs : s.Distinct) (h : s.launch times a d = some (d', .success input output)) :
    CompilesTo a input output ∧ d' s.outputPath = some output := by
  unfold SccSettings.launch at h
  split at h
  · cases h
  · next d1 h1 =>
    split at h
    · cases h
    · next disk h2 =>
      rcases runPlan_cases disk { a with separate := s.separate } with k | ⟨es, inp, -, k | ⟨b, pool, k1, k2, k3, k | ⟨w, k4, k⟩⟩⟩
      · simp only [k] at h
        cases h
      · simp only [k] at h
        cases h
      · simp only [k] at h
        cases h
      · simp only [k, exec_append] at h
        cases h
        refine ⟨⟨b, pool, w, k1, k2, k3, k4, rfl⟩, ?_⟩
        cases hsep : s.separate with
        | true =>
          rw [putBack_output _ _ hsep]
          rfl
        | false =>
          have e : s.outputPath = s.cachePath := by simpa [SccSettings.separate] using hsep
          rw [e, putBack_bundle hs]
          rfl

/-- C92: when `scc` was given options and exits with success, the scripts were compiled and the result is in the output file. -/
theorem C92_success_means_saved {parse : Text → PathParts} {library : Bool} {message : Bytes} {times : PathParts → BitVec 128} {a : RunArgs}
    {d d' : PathDisk} {o : LaunchOpts} {s : SccSettings} (ho : o.settings parse = some s) (hs : s.Distinct)
    (h : sccMain parse library message times a d (.opts o) = some (d', true)) :
    ∃ original saved, CompilesTo a original saved ∧ d' s.outputPath = some saved := by
  unfold sccMain at h
  simp only [ho] at h
  split at h
  · split at h
    · cases h
    · next d2 r hl =>
      cases r with
      | failed => cases h
      | success input output =>
        cases h
        exact ⟨_, _, launch_success hs hl⟩
  · cases h

/-- C92: over an unmodified cache with another output, `scc` exits with success if the scripts compile, and with failure, leaving the
output, if they do not. -/
theorem C92_exit_code {parse : Text → PathParts} {message : Bytes} {times : PathParts → BitVec 128} {a : RunArgs}
    {d : PathDisk} {o : LaunchOpts} {s : SccSettings} {original : Bytes} (ho : o.settings parse = some s) (hs : s.Apart)
    (hu : Unmodified s d original) :
    (∀ saved, CompilesTo a original saved →
      ∃ d', sccMain parse true message times a d (.opts o) = some (d', true) ∧ d' s.outputPath = some saved) ∧
    (Refuses a original → ∃ d', sccMain parse true message times a d (.opts o) = some (d', false) ∧ d' s.outputPath = d s.outputPath) := by
  constructor
  · intro saved hc
    obtain ⟨d', k1, k2, -⟩ := (C91_launch_to_another_file (times := times) hs hu).1 _ hc
    refine ⟨d', ?_, k2⟩
    simp only [sccMain, ho, k1]
    rfl
  · intro hr
    obtain ⟨d', k1, k2, -⟩ := (C91_launch_to_another_file (times := times) (a := a) hs hu).2 hr
    refine ⟨d', ?_, k2⟩
    simp only [sccMain, ho, k1]
    rfl

/-! ### Examples -/

namespace CApiDemo

/-- Memory that begins with the text, and has other bytes after it. -/
def holding (t : String) : Memory := fun i => ((strBytes t ++ [0, 7, 7])[i]?).getD 9

theorem holds {t : String} (h : '\x00' ∉ t.toList) : HoldsText (holding t) 0 t.toList := by
  refine ⟨h, fun i b hb => ?_, ?_⟩
  · rw [String.ofList_toList] at hb
    unfold holding
    rw [Nat.zero_add, List.getElem?_append_left (List.getElem?_eq_some_iff.1 hb).1, hb]
    rfl
  · rw [String.ofList_toList]
    unfold holding
    rw [Nat.zero_add, List.getElem?_append_right (Nat.le_refl _), Nat.sub_self]
    rfl

/-- Two script paths, and the output set twice in between, from one buffer whose content changes. -/
example : ∃ s s', settingsNew (fun t => [t]) (fun _ => []) 100 (holding "gra/r6") 0 = some s ∧
    s.calls (fun t => [t]) (fun _ => []) 100 [.scriptPath (holding "a") 0, .outputCache (holding "x") 0, .outputCache (holding "żółw") 0,
      .scriptPath (holding "b") 0] = some s' ∧
    s' = ⟨["gra/r6".toList], none, some ["żółw".toList], [["a".toList], ["b".toList]]⟩ := by
  obtain ⟨s, s', h1, h2, h3, h4, h5, h6⟩ := C92_settings_are_those_asked_for (parse := fun t => [t]) (lossy := fun _ => []) (fuel := 100)
    (r6 := "gra/r6".toList) (holds (t := "gra/r6") (by decide))
    (l := [(.scriptPath (holding "a") 0, .scriptPath "a".toList), (.outputCache (holding "x") 0, .outputCache "x".toList),
      (.outputCache (holding "żółw") 0, .outputCache "żółw".toList), (.scriptPath (holding "b") 0, .scriptPath "b".toList)])
    (by intro x hx
        simp only [List.mem_cons, List.not_mem_nil, or_false] at hx
        rcases hx with rfl | rfl | rfl | rfl
        · exact .scriptPath (holds (t := "a") (by decide))
        · exact .outputCache (holds (t := "x") (by decide))
        · exact .outputCache (holds (t := "żółw") (by decide))
        · exact .scriptPath (holds (t := "b") (by decide)))
    ⟨by decide +kernel, by
        intro x hx
        simp only [List.mem_cons, List.not_mem_nil, or_false] at hx
        rcases hx with rfl | rfl | rfl | rfl <;> decide +kernel⟩
  refine ⟨s, s', h1, h2, ?_⟩
  obtain ⟨a, b, c, d⟩ := s'
  simp only at h3 h4 h5 h6
  subst h3 h4 h5 h6
  rfl

/-- Options for the default cache and another output. -/
def opts : LaunchOpts := ⟨["r6".toList, "scripts".toList], none, none, none, some ["out".toList, "final.redscripts".toList]⟩

/-- The settings made of them. -/
def made : SccSettings := ⟨["r6".toList], some ["r6".toList, "cache".toList, "final.redscripts".toList],
  some ["out".toList, "final.redscripts".toList], []⟩

theorem made_apart : made.Apart :=
  ⟨⟨by decide, by decide, by decide, by decide, by decide⟩, by decide, by decide, by decide, by decide, by decide⟩

theorem made_unmodified : Unmodified made PathDemo.files LaunchDemo.game :=
  ⟨if_pos rfl, fun c hc => (by rw [PathDemo.files_none (by decide)] at hc; cases hc),
    fun c hc => (by rw [PathDemo.files_none (by decide)] at hc; cases hc), .inl ⟨PathDemo.files_none (by decide), PathDemo.files_none (by decide)⟩⟩

/-- A launch that succeeds, and what its exit code means. -/
example : ∃ d' original saved, sccMain (fun t => [t]) true [] (fun _ => 1) (LaunchDemo.args true true 5) PathDemo.files (.opts opts) = some (d', true) ∧
    CompilesTo (LaunchDemo.args true true 5) original saved ∧ d' made.outputPath = some saved := by
  obtain ⟨saved, h1⟩ := PathDemo.of_compilesB (a := LaunchDemo.args true true 5) (original := LaunchDemo.game) (by decide +kernel)
  obtain ⟨d', k1, -⟩ := (C92_exit_code (parse := fun t => [t]) (message := []) (times := fun _ => 1) (o := opts) rfl made_apart made_unmodified).1 _ h1
  obtain ⟨o, sv, k2, k3⟩ := C92_success_means_saved (o := opts) (s := made) rfl made_apart.toDistinct k1
  exact ⟨d', o, sv, k1, k2, k3⟩

end CApiDemo

end Redscript
