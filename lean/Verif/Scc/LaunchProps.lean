import Verif.Scc.LaunchModel
import Verif.Scc.ToolProps
import Verif.Bundle.SaveProps
import Verif.Bundle.PoolProps

/-!
# The original bundle of the game (C41, C42)
-/

namespace Redscript

/-! ### Specification -/

/-- What happens to an installation: the tool runs, to the end or only until `stop` changes are made, or
the game (its updater, or the repair of its files) replaces the bundle. -/
inductive GameEvent where
  | run (a : RunArgs) (stop : Option Nat)
  | update (f : SccFile)

/-- The files, and the bundle the game came with last. -/
structure Installation where
  disk : Disk
  original : Bytes

/-- The changes made by a run that may be interrupted. -/
def changes (d : Disk) (a : RunArgs) (stop : Option Nat) : List Effect :=
  match stop with
  | none => (runPlan d a).1
  | some n => (runPlan d a).1.take n

def Installation.step (w : Installation) : GameEvent → Installation
  | .run a stop => { w with disk := w.disk.exec (changes w.disk a stop) }
  | .update f => { disk := { w.disk with bundle := f }, original := f.content }

/-- The original bundle is still there. -/
def Installation.HasOriginal (w : Installation) : Prop :=
  w.disk.bundle.content = w.original ∨ ∃ b, w.disk.backup = some b ∧ b.content = w.original

/-- No run of the tool has succeeded since the timestamp file was created. -/
def Disk.unstamped (d : Disk) : Prop := Timestamp.read d.ts = .ok none

/-- The run started to write over the bundle, but did not come to record the time of its output. -/
def halfWritten (es : List Effect) : Prop :=
  (∃ f, Effect.output false f ∈ es) ∧ ∀ t, Effect.stamp t ∉ es

/-- The situations that the tool can deal with.
* An interrupted copy of the bundle is not a bundle.
* A run is not interrupted while it writes over the bundle, unless it is the first one.
* A run with separate output does not follow a first run that was interrupted in this way.
* The game is not updated between a first run that failed and the first run that succeeds.
* An update gives the bundle a time other than the one recorded by the tool. -/
def Permitted (w : Installation) : GameEvent → Prop
  | .run a stop =>
    (∃ e, ScriptBundle.load a.tornBackup = .error e) ∧
    (halfWritten (changes w.disk a stop) → w.disk.unstamped) ∧
    (a.separate = true → w.disk.unstamped → w.disk.bundle.content = w.original)
  | .update f =>
    (w.disk.unstamped → w.disk.backup = none) ∧ Timestamp.read w.disk.ts ≠ .ok (some f.mtime)

/-- An installation that the tool has not touched. -/
def Installation.Fresh (w : Installation) : Prop :=
  w.disk.bundle.content = w.original ∧ w.disk.backup = none ∧ w.disk.ts = []

/-- What can become of a fresh installation. -/
inductive Installation.Reachable : Installation → Prop
  | fresh {w} : w.Fresh → Reachable w
  | step {w e} : Reachable w → Permitted w e → Reachable (w.step e)

/-! ### Proofs -/

/-- The states in between. -/
inductive LaunchInv (w : Installation) : Prop
  | untouched : w.disk.bundle.content = w.original → w.disk.unstamped →
      (∀ b, w.disk.backup = some b → b.content = w.original ∨ ∃ e, ScriptBundle.load b.content = .error e) → LaunchInv w
  | updated (t : BitVec 128) : w.disk.bundle.content = w.original → Timestamp.read w.disk.ts = .ok (some t) →
      (w.disk.bundle.mtime ≠ t ∨ w.disk.backup = none) → LaunchInv w
  | compiled (b : SccFile) : w.disk.backup = some b → b.content = w.original →
      Timestamp.read w.disk.ts = .ok (some w.disk.bundle.mtime) → LaunchInv w
  | interrupted (b : SccFile) : w.disk.backup = some b → b.content = w.original → w.disk.unstamped → LaunchInv w

/-- What a run relies on when it starts to write. -/
def Ready (w : Installation) (a : RunArgs) (input : Bytes) : Prop :=
  input = w.original ∧
    if a.separate then w.disk.bundle.content = w.original ∧ w.disk.backup = none
    else ∃ b, w.disk.backup = some b ∧ b.content = w.original

theorem exec_nil (d : Disk) : d.exec [] = d := rfl
theorem exec_cons (d : Disk) (e : Effect) (es : List Effect) : d.exec (e :: es) = (d.apply e).exec es := rfl
theorem exec_append (d : Disk) (a b : List Effect) : d.exec (a ++ b) = (d.exec a).exec b := by
  simp [Disk.exec, List.foldl_append]

theorem inputOf_inv {w : Installation} {a : RunArgs} {es : List Effect} {input : Bytes} (hi : LaunchInv w)
    (hp : ∃ e, ScriptBundle.load a.tornBackup = .error e)
    (hs : a.separate = true → w.disk.unstamped → w.disk.bundle.content = w.original)
    (h : inputOf w.disk a = some (es, input)) :
    (∀ n, LaunchInv { w with disk := w.disk.exec (es.take n) }) ∧
    (∀ sep f, Effect.output sep f ∉ es) ∧ ((∀ t, Effect.stamp t ∉ es) ∧
      ∀ f, Effect.backup f ∈ es → f.content = w.original ∨ f.content = a.tornBackup) ∧ (w.disk.exec es).ts = w.disk.ts ∧
    ((∃ e, ScriptBundle.load input = .error e) ∨ Ready { w with disk := w.disk.exec es } a input) := by
  obtain ⟨d, o⟩ := w
  unfold inputOf at h
  cases hr : Timestamp.read d.ts with
  | error e => simp only [hr] at h; cases h
  | ok saved =>
    simp only [hr] at h
    have nochange : es = [] → (∀ n, LaunchInv { disk := d.exec (es.take n), original := o }) ∧
        (∀ sep f, Effect.output sep f ∉ es) ∧ ((∀ t, Effect.stamp t ∉ es) ∧
          ∀ f, Effect.backup f ∈ es → f.content = o ∨ f.content = a.tornBackup) ∧ (d.exec es).ts = d.ts := by
      rintro rfl; exact ⟨fun n => by simpa [Disk.exec] using hi, by simp, by simp, rfl⟩
    cases hsep : a.separate with
    | true =>
      simp only [hsep, if_true] at h
      -- the bundle is the original, or the backup is and its time is recorded
      have key : d.bundle.content = o ∨ saved = some d.bundle.mtime ∧ ∃ b, d.backup = some b ∧ b.content = o := by
        cases hi with
        | untouched h1 _ _ => exact .inl h1
        | updated _ h1 _ _ => exact .inl h1
        | compiled b h1 h2 h3 => exact .inr ⟨by rw [hr] at h3; cases h3; rfl, b, h1, h2⟩
        | interrupted _ _ _ h3 => exact .inl (hs hsep h3)
      have settled : ∀ d' : Disk, d'.bundle.content = o → d'.backup = none → d'.ts = d.ts →
          LaunchInv { disk := d', original := o } := by
        intro d' h1 h2 h3
        cases saved with
        | none => exact .untouched h1 (by rw [Disk.unstamped, h3]; exact hr) (by simp [h2])
        | some t => exact .updated t h1 (by rw [h3]; exact hr) (.inr h2)
      cases hb : d.backup with
      | none =>
        rw [hb] at h
        cases h
        obtain ⟨n1, n2, n4, n3⟩ := nochange rfl
        refine ⟨n1, n2, n4, n3, .inr ?_⟩
        rcases key with h1 | ⟨_, b, h1, _⟩
        · exact ⟨h1, by simp only [hsep, if_true]; exact ⟨h1, hb⟩⟩
        · rw [hb] at h1; cases h1
      | some b =>
        rw [hb] at h
        simp only at h
        split at h
        · rename_i hne
          cases h
          have h1 : d.bundle.content = o := by
            rcases key with h1 | ⟨h1, _⟩
            · exact h1
            · exact absurd h1 hne
          refine ⟨fun n => ?_, by simp, by simp, rfl, .inr ⟨h1, by simp only [hsep, if_true]; exact ⟨h1, rfl⟩⟩⟩
          cases n with
          | zero => exact hi
          | succ n => simp only [List.take_succ_cons, List.take_nil]; exact settled _ h1 rfl rfl
        · rename_i heq
          cases h
          have heq : saved = some d.bundle.mtime := by simpa using heq
          have h1 : b.content = o := by
            rcases key with h1 | ⟨_, b', h1, h2⟩
            · cases hi with
              | untouched _ h2 _ => rw [Disk.unstamped] at h2; simp only [hr, heq] at h2; cases h2
              | updated t _ h2 h3 =>
                simp only [hr, heq] at h2
                cases h2
                rcases h3 with h3 | h3
                · exact absurd rfl h3
                · rw [hb] at h3; cases h3
              | compiled b' h2 h3 _ => simp only [hb] at h2; cases h2; exact h3
              | interrupted b' h2 h3 _ => simp only [hb] at h2; cases h2; exact h3
            · rw [hb] at h1; cases h1; exact h2
          have e1 : d.exec [.restoreBackup] = { d with bundle := b, backup := none } := by
            simp [Disk.exec, Disk.apply, hb]
          refine ⟨fun n => ?_, by simp, by simp, by rw [e1], .inr ⟨h1, ?_⟩⟩
          · cases n with
            | zero => exact hi
            | succ n => simp only [List.take_succ_cons, List.take_nil]; rw [e1]; exact settled _ h1 rfl rfl
          · simp only [hsep, if_true]; rw [e1]; exact ⟨h1, rfl⟩
    | false =>
      simp only [hsep, Bool.false_eq_true, if_false] at h
      have copied : saved ≠ some d.bundle.mtime → ¬ (saved = none ∧ ∃ b, d.backup = some b) →
          es = [.backup ⟨a.tornBackup, a.tornTime⟩, .backup ⟨d.bundle.content, a.backupTime⟩] → input = d.bundle.content →
          (∀ n, LaunchInv { disk := d.exec (es.take n), original := o }) ∧
          (∀ sep f, Effect.output sep f ∉ es) ∧ ((∀ t, Effect.stamp t ∉ es) ∧
          ∀ f, Effect.backup f ∈ es → f.content = o ∨ f.content = a.tornBackup) ∧ (d.exec es).ts = d.ts ∧
          ((∃ e, ScriptBundle.load input = .error e) ∨ Ready { disk := d.exec es, original := o } a input) := by
        rintro hne hnb rfl rfl
        have h1 : d.bundle.content = o := by
          cases hi with
          | untouched h1 _ _ => exact h1
          | updated _ h1 _ _ => exact h1
          | compiled b _ _ h3 => simp only [hr] at h3; cases h3; exact absurd rfl hne
          | interrupted b h2 _ h3 =>
            rw [Disk.unstamped] at h3; simp only [hr] at h3; cases h3
            exact absurd ⟨rfl, b, h2⟩ hnb
        refine ⟨fun n => ?_, by simp, by simp [h1], rfl, .inr ⟨h1, ?_⟩⟩
        · have torn : ∀ f : SccFile, (f.content = o ∨ ∃ e, ScriptBundle.load f.content = .error e) →
              LaunchInv { disk := { d with backup := some f }, original := o } := by
            intro f hf
            cases saved with
            | none => exact .untouched h1 hr (by intro b hb; cases hb; exact hf)
            | some t => exact .updated t h1 hr (.inl fun he => hne (by rw [← he]))
          match n with
          | 0 => exact hi
          | 1 => exact torn _ (.inr hp)
          | n + 2 => simp only [List.take_succ_cons, List.take_nil]; exact torn _ (.inl h1)
        · simp only [hsep, Bool.false_eq_true, if_false]
          exact ⟨_, rfl, h1⟩
      cases saved with
      | none =>
        cases hb : d.backup with
        | some b =>
          rw [hb] at h
          cases h
          obtain ⟨n1, n2, n4, n3⟩ := nochange rfl
          refine ⟨n1, n2, n4, n3, ?_⟩
          have : b.content = o ∨ ∃ e, ScriptBundle.load b.content = .error e := by
            cases hi with
            | untouched _ _ h3 => exact h3 b hb
            | updated t _ h2 _ => simp only [hr] at h2; cases h2
            | compiled b' _ _ h3 => simp only [hr] at h3; cases h3
            | interrupted b' h2 h3 _ => simp only [hb] at h2; cases h2; exact .inl h3
          rcases this with h1 | h1
          · exact .inr ⟨h1, by simp only [hsep, Bool.false_eq_true, if_false]; exact ⟨b, hb, h1⟩⟩
          · exact .inl h1
        | none =>
          rw [hb] at h
          simp only [ne_eq, reduceCtorEq, not_false_eq_true, if_true, Option.some.injEq, Prod.mk.injEq] at h
          exact copied (by simp) (by simp [hb]) h.1.symm h.2.symm
      | some t =>
        simp only at h
        split at h
        · rename_i hne
          cases h
          exact copied hne (by simp) rfl rfl
        · rename_i heq
          have heq : t = d.bundle.mtime := by simpa using heq
          cases hb : d.backup with
          | none => rw [hb] at h; cases h
          | some b =>
            rw [hb] at h
            cases h
            obtain ⟨n1, n2, n4, n3⟩ := nochange rfl
            have h1 : b.content = o := by
              cases hi with
              | untouched _ h2 _ => rw [Disk.unstamped] at h2; simp only [hr] at h2; cases h2
              | updated t' _ h2 h3 =>
                simp only [hr] at h2
                cases h2
                rcases h3 with h3 | h3
                · exact absurd heq.symm h3
                · rw [hb] at h3; cases h3
              | compiled b' h2 h3 _ => simp only [hb] at h2; cases h2; exact h3
              | interrupted b' h2 h3 _ => simp only [hb] at h2; cases h2; exact h3
            exact ⟨n1, n2, n4, n3, .inr ⟨h1, by simp only [hsep, Bool.false_eq_true, if_false]; exact ⟨b, hb, h1⟩⟩⟩

/-- The changes of a run: those before reading the bundle, then possibly the writing of the output. -/
theorem runPlan_cases (d : Disk) (a : RunArgs) :
    (runPlan d a = ([], .failed)) ∨
    ∃ es input, inputOf d a = some (es, input) ∧
      ((runPlan d a = (es, .failed)) ∨
      ∃ b pool, ScriptBundle.load input = .ok b ∧ isSigned b.pool = false ∧ a.compile b.pool = some pool ∧
        ((runPlan d a = (es ++ [.output a.separate ⟨a.tornOutput, a.tornTime⟩], .failed)) ∨
        ∃ w, ScriptBundle.save a.crc { b with pool := addSignature pool } ⟨[], 0⟩ = .ok w ∧
          runPlan d a = (es ++ [.output a.separate ⟨a.tornOutput, a.tornTime⟩, .output a.separate ⟨w.buf, a.outputTime⟩,
              .stamp a.outputTime], .success input w.buf))) := by
  unfold runPlan
  cases h1 : inputOf d a with
  | none => exact .inl rfl
  | some r =>
    obtain ⟨es, input⟩ := r
    refine .inr ⟨es, input, rfl, ?_⟩
    simp only
    cases h2 : ScriptBundle.load input with
    | error e => exact .inl rfl
    | ok b =>
      simp only
      cases h3 : isSigned b.pool with
      | true => exact .inl rfl
      | false =>
        simp only [Bool.false_eq_true, if_false]
        cases h4 : a.compile b.pool with
        | none => exact .inl rfl
        | some pool =>
          simp only
          refine .inr ⟨b, pool, rfl, h3, h4, ?_⟩
          cases h5 : ScriptBundle.save a.crc { b with pool := addSignature pool } ⟨[], 0⟩ with
          | error e => exact .inl rfl
          | ok w => exact .inr ⟨w, rfl, rfl⟩

theorem ready_output {w : Installation} {a : RunArgs} {input : Bytes} {d' : Disk} (hr : Ready w a input)
    (ht : ∃ saved, Timestamp.read d'.ts = .ok saved) (hts : d'.backup = w.disk.backup)
    (hb : a.separate = true → d'.bundle = w.disk.bundle)
    (hfin : a.separate = false → d'.unstamped ∨ Timestamp.read d'.ts = .ok (some d'.bundle.mtime)) :
    LaunchInv { w with disk := d' } := by
  obtain ⟨h1, h2⟩ := hr
  cases hs : a.separate with
  | true =>
    simp only [hs, if_true] at h2
    obtain ⟨saved, hsv⟩ := ht
    cases saved with
    | none => exact .untouched (by simp only [hb hs]; exact h2.1) hsv (by simp [hts, h2.2])
    | some t => exact .updated t (by simp only [hb hs]; exact h2.1) hsv (.inr (by simp [hts, h2.2]))
  | false =>
    simp only [hs, Bool.false_eq_true, if_false] at h2
    obtain ⟨b, h3, h4⟩ := h2
    rcases hfin hs with h | h
    · exact .interrupted b (by simp [hts, h3]) h4 h
    · exact .compiled b (by simp [hts, h3]) h4 h

theorem launch_step {w : Installation} {e : GameEvent} (hi : LaunchInv w) (hp : Permitted w e) : LaunchInv (w.step e) := by
  cases e with
  | update f =>
    obtain ⟨h1, h2⟩ := hp
    unfold Installation.step
    cases hr : Timestamp.read w.disk.ts with
    | error e =>
      cases hi with
      | untouched _ h _ => rw [Disk.unstamped, hr] at h; cases h
      | updated _ _ h _ => rw [hr] at h; cases h
      | compiled _ _ _ h => rw [hr] at h; cases h
      | interrupted _ _ _ h => rw [Disk.unstamped, hr] at h; cases h
    | ok saved =>
      cases saved with
      | none => exact .untouched rfl hr (by simp [h1 hr])
      | some t => exact .updated t rfl hr (.inl fun he => h2 (by rw [hr, he]))
  | run a stop =>
    obtain ⟨hp1, hp2, hp3⟩ := hp
    show LaunchInv { w with disk := w.disk.exec (changes w.disk a stop) }
    have hts : ∃ saved, Timestamp.read w.disk.ts = .ok saved := by
      cases hi with
      | untouched _ h _ => exact ⟨_, h⟩
      | updated _ _ h _ => exact ⟨_, h⟩
      | compiled _ _ _ h => exact ⟨_, h⟩
      | interrupted _ _ _ h => exact ⟨_, h⟩
    -- the executed changes are some prefix
    obtain ⟨n, hn⟩ : ∃ n, changes w.disk a stop = (runPlan w.disk a).1.take n := by
      cases stop with
      | none => exact ⟨(runPlan w.disk a).1.length, by simp [changes]⟩
      | some n => exact ⟨n, rfl⟩
    rw [hn] at hp2 ⊢
    rcases runPlan_cases w.disk a with h | ⟨es, input, hin, h⟩
    · rw [h]; simpa [Disk.exec] using hi
    obtain ⟨k1, k2, ⟨k5, _⟩, k3, k4⟩ := inputOf_inv hi hp1 hp3 hin
    rcases h with h | ⟨b, pool, hl, _, _, h⟩
    · rw [h]; exact k1 n
    have hready : Ready { w with disk := w.disk.exec es } a input := by
      rcases k4 with ⟨e, h⟩ | h
      · rw [hl] at h; cases h
      · exact h
    rcases Nat.lt_or_ge n (es.length + 1) with hlt | hge
    · have : (runPlan w.disk a).1.take n = es.take n := by
        rcases h with h | ⟨w', _, h⟩ <;> rw [h] <;> exact List.take_append_of_le_length (by omega)
      rw [this]; exact k1 n
    · -- writing has started
      have torn : ∀ (f : SccFile) (fs : List SccFile) (d' : Disk), (runPlan w.disk a).1.take n =
          es ++ (f :: fs).map (.output a.separate) → d' = w.disk.exec (es ++ (f :: fs).map (.output a.separate)) →
          d'.ts = w.disk.ts → d'.backup = (w.disk.exec es).backup →
          (a.separate = true → d'.bundle = (w.disk.exec es).bundle) → LaunchInv { w with disk := d' } := by
        intro f fs d' ht hd h1 h2 h3
        refine ready_output (w := { w with disk := w.disk.exec es }) hready (by rw [h1]; exact hts) h2 h3 fun hsep => .inl ?_
        rw [Disk.unstamped, h1]
        refine hp2 ?_
        rw [ht, hsep]
        refine ⟨⟨f, by simp⟩, fun t => by simp [k5 t]⟩
      have fields : ∀ (d : Disk) (f : SccFile), (d.apply (.output a.separate f)).ts = d.ts ∧
          (d.apply (.output a.separate f)).backup = d.backup ∧
          (a.separate = true → (d.apply (.output a.separate f)).bundle = d.bundle) ∧
          (a.separate = false → (d.apply (.output a.separate f)).bundle = f) := by
        intro d f; cases a.separate <;> simp [Disk.apply]
      have tk : ∀ (l : List Effect) (j : Nat), (es ++ l).take (es.length + j) = es ++ l.take j := by
        intro l j
        rw [List.take_append, List.take_of_length_le (by omega)]
        simp
      obtain ⟨m, rfl⟩ : ∃ m, n = es.length + (m + 1) := ⟨n - es.length - 1, by omega⟩
      have one : ∀ f, (runPlan w.disk a).1.take (es.length + (m + 1)) = es ++ [f].map (.output a.separate) →
          LaunchInv { w with disk := w.disk.exec ((runPlan w.disk a).1.take (es.length + (m + 1))) } := by
        intro f hf
        rw [hf]
        refine torn f [] _ hf rfl ?_ ?_ ?_ <;> rw [exec_append] <;> simp only [List.map_cons, List.map_nil, exec_cons, exec_nil]
        · rw [(fields _ f).1, k3]
        · exact (fields _ f).2.1
        · exact (fields _ f).2.2.1
      rcases h with h | ⟨w', _, h⟩
      · refine one ⟨a.tornOutput, a.tornTime⟩ ?_
        rw [h]
        simp only [tk]; simp
      · rcases m with _ | _ | m
        · 
          refine one ⟨a.tornOutput, a.tornTime⟩ ?_
          rw [h]
          simp only [tk]; simp
        · have hf : (runPlan w.disk a).1.take (es.length + 2) =
              es ++ [⟨a.tornOutput, a.tornTime⟩, ⟨w'.buf, a.outputTime⟩].map (.output a.separate) := by
            rw [h]; simp only [tk]; simp
          show LaunchInv { w with disk := w.disk.exec ((runPlan w.disk a).1.take (es.length + 2)) }
          rw [hf]
          refine torn _ _ _ hf rfl ?_ ?_ ?_ <;> rw [exec_append] <;> simp only [List.map_cons, List.map_nil, exec_cons, exec_nil]
          · rw [(fields _ _).1, (fields _ _).1, k3]
          · rw [(fields _ _).2.1, (fields _ _).2.1]
          · intro hs; rw [(fields _ _).2.2.1 hs, (fields _ _).2.2.1 hs]
        · have hf : (runPlan w.disk a).1.take (es.length + (m + 2 + 1)) =
              es ++ [.output a.separate ⟨a.tornOutput, a.tornTime⟩, .output a.separate ⟨w'.buf, a.outputTime⟩,
                .stamp a.outputTime] := by
            rw [h]; simp only [tk]; simp
          rw [hf, exec_append]
          simp only [exec_cons, exec_nil]
          generalize hd : ((w.disk.exec es).apply (.output a.separate ⟨a.tornOutput, a.tornTime⟩)).apply
            (.output a.separate ⟨w'.buf, a.outputTime⟩) = d
          have f1 : d.backup = (w.disk.exec es).backup := by rw [← hd, (fields _ _).2.1, (fields _ _).2.1]
          have f2 : a.separate = true → d.bundle = (w.disk.exec es).bundle := by
            intro hs; rw [← hd, (fields _ _).2.2.1 hs, (fields _ _).2.2.1 hs]
          have f3 : a.separate = false → d.bundle = ⟨w'.buf, a.outputTime⟩ := by
            intro hs; rw [← hd, (fields _ _).2.2.2 hs]
          have f4 : Timestamp.read (d.apply (.stamp a.outputTime)).ts = .ok (some a.outputTime) :=
            C50_written_is_read_back _ _
          refine ready_output (w := { w with disk := w.disk.exec es }) hready ⟨_, f4⟩ f1 f2 fun hs => .inr ?_
          rw [f4]
          simp only [Disk.apply, f3 hs]

theorem launch_inv {w : Installation} (h : w.Reachable) : LaunchInv w := by
  induction h with
  | fresh h =>
    obtain ⟨h1, h2, h3⟩ := h
    exact .untouched h1 (by rw [Disk.unstamped, h3]; rfl) (by simp [h2])
  | step _ hp ih => exact launch_step ih hp

/-! ### Properties -/

/-- C41: in every history of runs, updates and crashes that meets the conditions of `Permitted`, the bundle
the game came with is the bundle or the backup.

Missing for the full claim: the conditions. `C41_second_run_interrupted_counterexample`,
`C41_update_after_failed_run_counterexample` and `C41_separate_after_interrupted_counterexample` show that
each of them is needed. -/
theorem C41_original_is_kept_partial {w : Installation} (h : w.Reachable) : w.HasOriginal := by
  cases launch_inv h with
  | untouched h _ _ => exact .inl h
  | updated _ h _ _ => exact .inl h
  | compiled b h1 h2 _ => exact .inr ⟨b, h1, h2⟩
  | interrupted b h1 h2 _ => exact .inr ⟨b, h1, h2⟩

/-- C41: a run only ever copies the original bundle to the backup, and only removes or moves the backup
when the bundle is the original or becomes it. -/
theorem C41_backup_is_the_original_partial {w : Installation} (h : w.Reachable) (a : RunArgs) (stop : Option Nat)
    (hp : Permitted w (.run a stop)) (f : SccFile)
    (hf : Effect.backup f ∈ changes w.disk a stop) : f.content = w.original ∨ f.content = a.tornBackup := by
  obtain ⟨n, hn⟩ : ∃ n, changes w.disk a stop = (runPlan w.disk a).1.take n := by
    cases stop with
    | none => exact ⟨(runPlan w.disk a).1.length, by simp [changes]⟩
    | some n => exact ⟨n, rfl⟩
  rw [hn] at hf
  have hf := List.mem_of_mem_take hf
  rcases runPlan_cases w.disk a with h' | ⟨es, input, hin, h'⟩
  · rw [h'] at hf; cases hf
  obtain ⟨_, _, ⟨_, k⟩, _, _⟩ := inputOf_inv (launch_inv h) hp.1 hp.2.2 hin
  refine k f ?_
  rcases h' with h' | ⟨_, _, _, _, _, h' | ⟨_, _, h'⟩⟩ <;> rw [h'] at hf <;> simpa using hf

/-- C42: whatever the state of the files, a successful run compiled against a bundle that does not carry the
signature, and it wrote what the compiler made of it, signed. -/
theorem C42_input_unsigned {d : Disk} {a : RunArgs} {es : List Effect} {input output : Bytes}
    (h : runPlan d a = (es, .success input output)) :
    ∃ b pool w, ScriptBundle.load input = .ok b ∧ isSigned b.pool = false ∧ a.compile b.pool = some pool ∧
      ScriptBundle.save a.crc { b with pool := addSignature pool } ⟨[], 0⟩ = .ok w ∧ output = w.buf := by
  rcases runPlan_cases d a with h' | ⟨es', input', _, h' | ⟨b, pool, h1, h2, h3, h' | ⟨w, h4, h'⟩⟩⟩ <;>
    rw [h'] at h <;> cases h
  exact ⟨b, pool, w, h1, h2, h3, h4, rfl⟩

theorem load_names {file : Bytes} {b : ScriptBundle} (h : ScriptBundle.load file = .ok b) :
    b.pool.names.Reachable none := by
  unfold ScriptBundle.load at h
  split at h
  · rename_i b' rest hd
    cases h
    obtain ⟨header, r, _, hd⟩ := Dec.bind_eq_ok.1 hd
    obtain ⟨pool, r2, hp, hd⟩ := Dec.bind_eq_ok.1 hd
    simp only [Dec.pure, Except.ok.injEq, Prod.mk.injEq] at hd
    obtain ⟨rfl, _⟩ := hd
    unfold decPool at hp
    obtain ⟨data, r3, _, hp⟩ := Dec.bind_eq_ok.1 hp
    obtain ⟨names, r4, hn, hp⟩ := Dec.bind_eq_ok.1 hp
    obtain ⟨_, _, _, hp⟩ := Dec.bind_eq_ok.1 hp
    obtain ⟨_, _, _, hp⟩ := Dec.bind_eq_ok.1 hp
    obtain ⟨_, _, _, hp⟩ := Dec.bind_eq_ok.1 hp
    obtain ⟨_, _, _, hp⟩ := Dec.bind_eq_ok.1 hp
    obtain ⟨_, _, _, hp⟩ := Dec.bind_eq_ok.1 hp
    simp only [Dec.pure, Except.ok.injEq, Prod.mk.injEq] at hp
    obtain ⟨rfl, _⟩ := hp
    exact .loaded hn (by simp)
  · cases h

theorem signature_added {p : ConstantPool} {dflt : Option String} (h : p.names.Reachable dflt) :
    signatureDef ∈ (addSignature p).names.strings := by
  unfold addSignature
  simp only [ConstantPool.addDefinition]
  unfold Strings.add
  rw [if_neg (by decide)]
  split
  · rename_i i hi
    have := h.inv.map _ _ hi
    exact List.mem_of_getElem? this
  · simp

/-- C42: the output of a run carries the signature, and a run never compiles against it. -/
theorem C42_output_signed {d : Disk} {a : RunArgs} {es : List Effect} {input output : Bytes}
    (h : runPlan d a = (es, .success input output))
    (hc : ∀ p q, a.compile p = some q → (∃ dflt, q.names.Reachable dflt) ∧ Saveable (addSignature q))
    (hlen : output.length < 2 ^ 32) :
    (∃ b, ScriptBundle.load output = .ok b ∧ isSigned b.pool = true) ∧
    ∀ d' a' es' output', runPlan d' a' ≠ (es', .success output output') := by
  obtain ⟨b, pool, w, h1, h2, h3, h4, rfl⟩ := C42_input_unsigned h
  obtain ⟨⟨dflt, hr⟩, hs⟩ := hc _ _ h3
  obtain ⟨w', h5, h6⟩ := C09_save_load a.crc { b with pool := addSignature pool } hs ⟨[], 0⟩
  rw [h4] at h5
  cases h5
  obtain ⟨b', h7, h8, _⟩ := h6 hlen
  have hsig : isSigned b'.pool = true := by
    have hm : signatureDef ∈ b'.pool.names.strings := by rw [h8]; exact signature_added hr
    obtain ⟨i, hi⟩ := (C11_get_index none _ (load_names h7) signatureDef).2 hm
    rw [isSigned, hi]; rfl
  refine ⟨⟨b', h7, hsig⟩, fun d' a' es' output' h' => ?_⟩
  obtain ⟨b'', _, _, h9, h10, _⟩ := C42_input_unsigned h'
  rw [h7] at h9
  cases h9
  rw [hsig] at h10
  cases h10

/-- C42: in every history that meets the conditions of `Permitted`, a successful run compiles against the
bundle the game came with. -/
theorem C42_compiles_against_the_original_partial {w : Installation} (h : w.Reachable) {a : RunArgs}
    (hp : Permitted w (.run a none)) {es : List Effect} {input output : Bytes}
    (hr : runPlan w.disk a = (es, .success input output)) : input = w.original := by
  rcases runPlan_cases w.disk a with h' | ⟨es', input', hin, h'⟩
  · rw [h'] at hr; cases hr
  obtain ⟨_, _, _, _, k⟩ := inputOf_inv (launch_inv h) hp.1 hp.2.2 hin
  rcases h' with h' | ⟨b, _, hl, _, _, h' | ⟨_, _, h'⟩⟩ <;> rw [h'] at hr <;> cases hr
  rcases k with ⟨e, k⟩ | k
  · rw [hl] at k; cases k
  · exact k.1

/-- Complete runs, one after another. An interrupted copy is not a bundle, and writing the output does not
fail. -/
inductive RunsFrom (d : Disk) : Disk → Prop
  | refl : RunsFrom d d
  | run {d'} (a : RunArgs) : RunsFrom d d' → (∃ e, ScriptBundle.load a.tornBackup = .error e) →
      ¬ halfWritten (runPlan d' a).1 → RunsFrom d (d'.exec (runPlan d' a).1)

theorem inputOf_ready {d : Disk} {a : RunArgs} {es : List Effect} {input : Bytes} (h : inputOf d a = some (es, input)) :
    Ready { disk := d.exec es, original := input } a input := by
  unfold inputOf at h
  split at h
  · cases h
  · cases hsep : a.separate with
    | true =>
      simp only [hsep, if_true] at h
      refine ⟨rfl, ?_⟩
      simp only [hsep, if_true]
      split at h
      · rename_i b hb
        split at h
        · cases h; exact ⟨rfl, rfl⟩
        · cases h; simp [Disk.exec, Disk.apply, hb]
      · rename_i hb
        cases h; exact ⟨rfl, hb⟩
    | false =>
      simp only [hsep, Bool.false_eq_true, if_false] at h
      refine ⟨rfl, ?_⟩
      simp only [hsep, Bool.false_eq_true, if_false]
      split at h
      · rename_i b hb _
        cases h; exact ⟨b, by assumption, rfl⟩
      · split at h
        · cases h; exact ⟨_, rfl, rfl⟩
        · split at h
          · cases h
          · rename_i b hb
            cases h; exact ⟨b, by assumption, rfl⟩

/-- After a successful run the timestamp is that of its output. -/
theorem success_exec {d : Disk} {a : RunArgs} {es : List Effect} {input output : Bytes}
    (h : runPlan d a = (es, .success input output)) :
    LaunchInv { disk := d.exec es, original := input } ∧ ∃ t, Timestamp.read (d.exec es).ts = .ok (some t) := by
  rcases runPlan_cases d a with h' | ⟨es', input', hin, h' | ⟨b, _, hl, _, _, h' | ⟨w, _, h'⟩⟩⟩ <;> rw [h'] at h <;> cases h
  have hr := inputOf_ready hin
  have f4 : ∀ d' : Disk, Timestamp.read (d'.apply (.stamp a.outputTime)).ts = .ok (some a.outputTime) :=
    fun d' => C50_written_is_read_back _ _
  rw [exec_append]
  simp only [exec_cons, exec_nil]
  refine ⟨ready_output (w := { disk := d.exec es', original := input }) hr ⟨_, f4 _⟩ ?_ ?_ ?_, _, f4 _⟩
  · cases a.separate <;> rfl
  · intro hs; rw [hs]; rfl
  · intro hs; right; rw [f4, hs]; rfl

theorem stamped_exec (es : List Effect) (d : Disk) (h : ∃ t, Timestamp.read d.ts = .ok (some t)) :
    ∃ t, Timestamp.read (d.exec es).ts = .ok (some t) := by
  induction es generalizing d with
  | nil => exact h
  | cons e es ih =>
    rw [exec_cons]
    refine ih _ ?_
    cases e with
    | stamp t => exact ⟨t, C50_written_is_read_back _ _⟩
    | output sep f => cases sep <;> exact h
    | restoreBackup =>
      simp only [Disk.apply]
      split <;> exact h
    | _ => exact h

/-- C42: running again, any number of times and with any scripts, compiles against the very same bundle,
whatever the state of the files before the first of these runs. -/
theorem C42_reruns_share_the_input {d d' : Disk} {a a' : RunArgs} {es es' : List Effect}
    {input output input' output' : Bytes} (h : runPlan d a = (es, .success input output))
    (hruns : RunsFrom (d.exec es) d') (ht : ∃ e, ScriptBundle.load a'.tornBackup = .error e)
    (h' : runPlan d' a' = (es', .success input' output')) : input' = input := by
  have key : LaunchInv { disk := d', original := input } ∧ ∃ t, Timestamp.read d'.ts = .ok (some t) := by
    clear h'
    induction hruns with
    | refl => exact success_exec h
    | @run d'' a'' _ htorn hhalf ih =>
      obtain ⟨ih1, t, ih2⟩ := ih
      have hne : ¬ d''.unstamped := by rw [Disk.unstamped, ih2]; simp
      exact ⟨launch_step (e := .run a'' none) ih1 ⟨htorn, fun hh => absurd hh hhalf, fun _ hu => absurd hu hne⟩,
        stamped_exec _ _ ⟨t, ih2⟩⟩
  obtain ⟨hi, t, ht2⟩ := key
  have hne : ¬ d'.unstamped := by rw [Disk.unstamped, ht2]; simp
  rcases runPlan_cases d' a' with h3 | ⟨es3, input3, hin, h3⟩
  · rw [h3] at h'; cases h'
  obtain ⟨_, _, _, _, k⟩ := inputOf_inv hi ht (fun _ hu => absurd hu hne) hin
  rcases h3 with h3 | ⟨b, _, hl, _, _, h3 | ⟨_, _, h3⟩⟩ <;> rw [h3] at h' <;> cases h'
  rcases k with ⟨e, k⟩ | k
  · rw [hl] at k; cases k
  · exact k.1

/-! ### Concrete histories -/

namespace LaunchDemo

/-- A bundle of the game. -/
def game : Bytes :=
  match ScriptBundle.save (fun _ => 0) ⟨Header.sample, ConstantPool.sample⟩ ⟨[], 0⟩ with
  | .ok w => w.buf
  | .error _ => []

/-- The next version of the game. -/
def game2 : Bytes :=
  match ScriptBundle.save (fun _ => 0) ⟨{ Header.sample with timestamp := 8 }, ConstantPool.sample⟩ ⟨[], 0⟩ with
  | .ok w => w.buf
  | .error _ => []

def fresh : Installation := { disk := { bundle := ⟨game, 1⟩, backup := none, ts := [], output := none }, original := game }

/-- A run at time `t`, of scripts that compile or not. -/
def args (separate ok : Bool) (t : BitVec 128) : RunArgs where
  separate := separate
  compile := fun p => if ok then some p else none
  crc := fun _ => 0
  backupTime := t
  outputTime := t + 100
  tornTime := t + 50
  tornBackup := []
  tornOutput := []

def lost (w : Installation) : Bool :=
  decide (w.disk.bundle.content ≠ w.original) &&
    match w.disk.backup with
    | some b => decide (b.content ≠ w.original)
    | none => true

theorem lost_iff {w : Installation} (h : lost w = true) : ¬ w.HasOriginal := by
  simp only [lost, Bool.and_eq_true, decide_eq_true_eq] at h
  rintro (h1 | ⟨b, h1, h2⟩)
  · exact h.1 h1
  · rw [h1] at h
    simp only [decide_eq_true_eq] at h
    exact h.2 h2

def succeeded (d : Disk) (a : RunArgs) : Bool :=
  match (runPlan d a).2 with
  | .success _ _ => true
  | .failed => false

theorem of_succeeded {d : Disk} {a : RunArgs} (h : succeeded d a = true) :
    ∃ i o, runPlan d a = ((runPlan d a).1, .success i o) := by
  unfold succeeded at h
  split at h
  · rename_i i o hr; exact ⟨i, o, Prod.ext rfl hr⟩
  · cases h

theorem of_failed {d : Disk} {a : RunArgs} (h : succeeded d a = false) : (runPlan d a).2 = .failed := by
  unfold succeeded at h
  split at h
  · cases h
  · assumption

theorem fresh_ok : fresh.Fresh := ⟨rfl, rfl, rfl⟩

/-- A history that meets the conditions: a run that succeeds, an update, and another run. -/
def first : Installation := fresh.step (.run (args false true 5) none)
def updated_ : Installation := first.step (.update ⟨game2, 6⟩)
def second : Installation := updated_.step (.run (args false true 7) none)

example : succeeded fresh.disk (args false true 5) = true ∧ succeeded updated_.disk (args false true 7) = true ∧
    decide (game ≠ game2) = true := by
  refine ⟨?_, ?_, ?_⟩ <;> decide +kernel

theorem stamp_of {f : Bytes} {t : BitVec 128}
    (h : (match Timestamp.read f with | .ok (some t') => decide (t' = t) | _ => false) = true) :
    Timestamp.read f = .ok (some t) := by
  split at h
  · rename_i t' ht
    rw [ht, of_decide_eq_true h]
  · cases h

theorem first_stamp : Timestamp.read first.disk.ts = .ok (some 105) := stamp_of (by decide +kernel)

theorem torn_ok : ∃ e, ScriptBundle.load [] = .error e := by
  cases h : ScriptBundle.load [] with
  | error e => exact ⟨e, rfl⟩
  | ok b =>
    have : (match ScriptBundle.load [] with | .ok _ => false | .error _ => true) = true := by decide +kernel
    rw [h] at this; cases this

example : second.Reachable := by
  refine .step (.step (.step (.fresh fresh_ok) ⟨torn_ok, fun _ => rfl, fun h => by cases h⟩) ⟨?_, ?_⟩) ⟨torn_ok, ?_, fun h => by cases h⟩
  · intro h; rw [Disk.unstamped, first_stamp] at h
    cases h
  · rw [first_stamp]
    decide
  · rintro ⟨_, h⟩
    exfalso
    have : ((runPlan updated_.disk (args false true 7)).1.any fun e => match e with | .stamp _ => true | _ => false) = true := by
      decide +kernel
    rw [List.any_eq_true] at this
    obtain ⟨e, he, h2⟩ := this
    cases e with
    | stamp t => exact h t he
    | _ => cases h2

end LaunchDemo

open LaunchDemo in
/-- C41 fails when a later run is interrupted while it writes its output: the next run takes the torn file
for a new bundle of the game and copies it over the backup. -/
theorem C41_second_run_interrupted_counterexample : ∃ (w : Installation) (a b c : RunArgs), w.Fresh ∧
    (∃ i o, (runPlan w.disk a).2 = .success i o) ∧
    ¬ (((w.step (.run a none)).step (.run b (some 1))).step (.run c none)).HasOriginal := by
  refine ⟨fresh, args false true 5, args false true 6, args false true 7, fresh_ok, ?_, lost_iff (by decide +kernel)⟩
  obtain ⟨i, o, h⟩ := of_succeeded (d := fresh.disk) (a := args false true 5) (by decide +kernel)
  exact ⟨i, o, congrArg Prod.snd h⟩

open LaunchDemo in
/-- C41 fails when the game is updated after a first run that failed, without any crash: the run that follows
compiles against the old backup and overwrites the new bundle. -/
theorem C41_update_after_failed_run_counterexample : ∃ (w : Installation) (a b : RunArgs) (f : SccFile), w.Fresh ∧
    (runPlan w.disk a).2 = .failed ∧
    ¬ (((w.step (.run a none)).step (.update f)).step (.run b none)).HasOriginal := by
  exact ⟨fresh, args false false 5, args false true 7, ⟨game2, 6⟩, fresh_ok, of_failed (by decide +kernel),
    lost_iff (by decide +kernel)⟩

open LaunchDemo in
/-- C41 fails when a run with separate output follows a first run that was interrupted: the backup is
removed as stale. -/
theorem C41_separate_after_interrupted_counterexample : ∃ (w : Installation) (a b : RunArgs), w.Fresh ∧
    b.separate = true ∧ ¬ ((w.step (.run a (some 3))).step (.run b none)).HasOriginal :=
  ⟨fresh, args false true 5, args true true 6, fresh_ok, rfl, lost_iff (by decide +kernel)⟩

open LaunchDemo in
/-- The hypotheses of C42 hold for a run, a failing run, and another run. -/
example : ∃ es i o, runPlan fresh.disk (args false true 5) = (es, .success i o) ∧
    RunsFrom (fresh.disk.exec es) ((fresh.disk.exec es).exec (runPlan (fresh.disk.exec es) (args true false 6)).1) ∧
    succeeded ((fresh.disk.exec es).exec (runPlan (fresh.disk.exec es) (args true false 6)).1) (args false true 7) = true := by
  obtain ⟨i, o, h⟩ := of_succeeded (d := fresh.disk) (a := args false true 5) (by decide +kernel)
  refine ⟨_, i, o, h, .run _ .refl torn_ok ?_, by decide +kernel⟩
  rintro ⟨⟨f, hf⟩, _⟩
  have h3 : ((runPlan (fresh.disk.exec (runPlan fresh.disk (args false true 5)).1) (args true false 6)).1.all fun e =>
      match e with | .output _ _ => false | _ => true) = true := by decide +kernel
  exact absurd (List.all_eq_true.1 h3 _ hf) (by simp)

end Redscript
