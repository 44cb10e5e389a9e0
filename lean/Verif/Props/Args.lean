import Verif.Spec.Args
import Verif.Props.Debug
/-!
# C150: the arguments of elkm1-cli
-/

namespace Elk.Props
open Spec

theorem argKind_value {a : Bytes} : argKind a = .value ↔ (a.head? ≠ some 0x2D ∨ a = bs "-") := by
  have e : bs "-" = [0x2D] := by decide
  cases a with
  | nil => simp [argKind]
  | cons x r =>
    by_cases hx : x = 0x2D
    · subst hx
      simp only [argKind, List.head?_cons, ne_eq, not_true_eq_false, false_or, e]
      split
      · next h => simp [h]
      · split
        · next h => simp [h]
        · next h => simp [h]
    · have : argKind (x :: r) = .value := by
        unfold argKind
        split
        · next h => simp at h; exact absurd h.1 hx
        · rfl
      simp [this, hx]

theorem argKind_escape {a : Bytes} : argKind a = .escape ↔ a = bs "--" := by
  have e : bs "-" = [0x2D] := by decide
  have e2 : bs "--" = [0x2D, 0x2D] := by decide
  unfold argKind
  split
  · rw [e, e2]
    split
    · next h => simp [h]
    · split <;> simp_all
  · next h =>
    simp only [reduceCtorEq, false_iff]
    rintro rfl
    exact h _ e2

theorem trailing_got {ok : Bytes → Bool} {g v : Bytes} {args : List Bytes} :
    positional ok (some g) true args = some v ↔ args = [] ∧ v = g := by
  cases args with
  | nil => simp [positional, eq_comm]
  | cons a l => simp [positional]

theorem trailing_none {ok : Bytes → Bool} {v : Bytes} {args : List Bytes} :
    positional ok none true args = some v ↔ args = [v] ∧ ok v = true := by
  cases args with
  | nil => simp [positional]
  | cons a l =>
    simp only [positional, if_true]
    by_cases h : ok a = true
    · rw [if_pos h, trailing_got]
      constructor
      · rintro ⟨rfl, rfl⟩; exact ⟨rfl, h⟩
      · rintro ⟨h, _⟩; cases h; exact ⟨rfl, rfl⟩
    · rw [if_neg h]
      simp only [reduceCtorEq, false_iff]
      rintro ⟨h', hv⟩
      cases h'
      exact h hv

theorem plain_got {ok : Bytes → Bool} {g v : Bytes} {args : List Bytes} :
    positional ok (some g) false args = some v ↔ (args = [] ∨ args = [bs "--"]) ∧ v = g := by
  cases args with
  | nil => simp [positional, eq_comm]
  | cons a l =>
    simp only [positional, Bool.false_eq_true, if_false]
    cases hk : argKind a with
    | escape =>
      rw [argKind_escape] at hk
      subst hk
      simp [trailing_got]
    | flag =>
      simp only [reduceCtorEq, false_or, false_iff]
      rintro ⟨h, _⟩
      cases h
      rw [argKind_escape.mpr rfl] at hk
      cases hk
    | value =>
      simp only [reduceCtorEq, false_or, false_iff]
      rintro ⟨h, _⟩
      cases h
      rw [argKind_escape.mpr rfl] at hk
      cases hk

theorem positional_iff {ok : Bytes → Bool} {v : Bytes} {args : List Bytes} :
    positional ok none false args = some v ↔ GivenAs v args ∧ ok v = true := by
  cases args with
  | nil =>
    simp only [positional, reduceCtorEq, false_iff]
    rintro ⟨h, _⟩
    cases h
  | cons a l =>
    simp only [positional, Bool.false_eq_true, if_false]
    cases hk : argKind a with
    | escape =>
      have ha := argKind_escape.mp hk
      subst ha
      simp only [trailing_none]
      constructor
      · rintro ⟨rfl, h⟩
        exact ⟨.escaped, h⟩
      · rintro ⟨h, hv⟩
        cases h with
        | plain h => rw [argKind_value.mpr h] at hk; cases hk
        | escaped => exact ⟨rfl, hv⟩
        | ended h => rw [argKind_value.mpr h] at hk; cases hk
    | flag =>
      simp only [reduceCtorEq, false_iff]
      rintro ⟨h, _⟩
      cases h with
      | plain h => rw [argKind_value.mpr h] at hk; cases hk
      | escaped => rw [argKind_escape.mpr rfl] at hk; cases hk
      | ended h => rw [argKind_value.mpr h] at hk; cases hk
    | value =>
      have ha := argKind_value.mp hk
      by_cases h : ok a = true
      · simp only [h, if_true, plain_got]
        constructor
        · rintro ⟨rfl | rfl, rfl⟩
          · exact ⟨.plain ha, h⟩
          · exact ⟨.ended ha, h⟩
        · rintro ⟨hg, _⟩
          cases hg with
          | plain => exact ⟨.inl rfl, rfl⟩
          | escaped => rw [argKind_escape.mpr rfl] at hk; cases hk
          | ended => exact ⟨.inr rfl, rfl⟩
      · simp only [h, Bool.false_eq_true, if_false, reduceCtorEq, false_iff]
        rintro ⟨hg, hv⟩
        cases hg with
        | plain => exact h hv
        | escaped => rw [argKind_escape.mpr rfl] at hk; cases hk
        | ended => exact h hv

/-- **C150**: a command is run exactly if the arguments give it. -/
theorem C150_args (args : List Bytes) (c : Cmd) : Cmd.parse args = some c ↔ Given c args := by
  cases args with
  | nil =>
    simp only [Cmd.parse, reduceCtorEq, false_iff]
    intro h
    cases h
  | cons sub args =>
    unfold Cmd.parse
    dsimp only
    split
    · next h =>
      subst h
      simp only [Option.map_eq_some_iff, positional_iff]
      constructor
      · rintro ⟨a, ⟨h1, h2⟩, rfl⟩
        exact .watch h2 h1
      · intro h
        cases h with
        | watch h1 h2 => exact ⟨_, ⟨h2, h1⟩, rfl⟩
    · next hw =>
      split
      · next h =>
        subst h
        simp only [Option.map_eq_some_iff, positional_iff]
        constructor
        · rintro ⟨a, ⟨h1, h2⟩, rfl⟩
          exact .read (by simpa using h2) h1
        · intro h
          cases h with
          | read h1 h2 => exact ⟨_, ⟨h2, by simpa using h1⟩, rfl⟩
      · next hr =>
        simp only [reduceCtorEq, false_iff]
        intro h
        cases h with
        | watch => exact hw rfl
        | read => exact hr rfl

/-- **C150**: every address that is UTF-8, and every file with a name, can be given, also one that looks
like an option; and no other. -/
theorem C150_all :
    (∀ addr, (∃ args, Cmd.parse args = some (.watch addr)) ↔ utf8Valid addr = true) ∧
    ∀ filename, (∃ args, Cmd.parse args = some (.read filename)) ↔ filename ≠ [] := by
  constructor
  · intro a
    constructor
    · rintro ⟨args, h⟩
      rw [C150_args] at h
      cases h with
      | watch h => exact h
    · exact fun h => ⟨_, (C150_args _ _).mpr (.watch h .escaped)⟩
  · intro a
    constructor
    · rintro ⟨args, h⟩
      rw [C150_args] at h
      cases h with
      | read h => exact h
    · exact fun h => ⟨_, (C150_args _ _).mpr (.read h .escaped)⟩

/-- **C150**: what the program does depends on no file but one that it is given to read; it panics
exactly if this one cannot be read, and else what it prints tells all that is in it. -/
theorem C150_main (files : Bytes → Except IoErr Bytes) (args : List Bytes) :
    (∀ addr w, Cli.main files args = .watch addr w ↔ Given (.watch addr) args ∧ w = .dialing) ∧
    (Cli.main files args = .usage ↔ ∀ c, ¬ Given c args) ∧
    (∀ r, Cli.main files args = .read r → ∃ f, Given (.read f) args ∧
      ((∃ e, r = .error e) ↔ ∃ e, files f = .error e) ∧
      ∀ files' args' f' t, Given (.read f') args' → r = .ok t →
        Cli.main files' args' = .read (.ok t) → files' f' = files f) := by
  unfold Cli.main
  refine ⟨fun addr w => ?_, ?_, fun r hr => ?_⟩
  · rw [← C150_args]
    split
    · next h => simp [h]
    · next h => rw [h]; simp [eq_comm]
    · next h => simp [h]
  · simp only [← C150_args]
    split
    · next h => simp [h]
    · next h => simp [h]
    · next h => simp [h]
  · split at hr
    · cases hr
    · cases hr
    · next f hf =>
      injection hr with hr
      refine ⟨f, (C150_args _ _).mp hf, ?_, ?_⟩
      · cases hx : files f with
        | error e =>
          rw [hx] at hr
          exact ⟨fun _ => ⟨e, rfl⟩, fun _ => ⟨.expect, hr.symm⟩⟩
        | ok data =>
          obtain ⟨t, ht⟩ := (C107_read data).1
          rw [hx, ht] at hr
          subst hr
          exact ⟨nofun, nofun⟩
      · intro files' args' f' t hg ht hm
        rw [(C150_args _ _).mpr hg] at hm
        injection hm with hm
        subst ht
        cases hx : files f with
        | error e => rw [hx] at hr; cases hr
        | ok data =>
          cases hy : files' f' with
          | error e => rw [hy] at hm; cases hm
          | ok data' =>
            rw [hx] at hr
            rw [hy] at hm
            rw [(C107_read data').2 data t hm hr]

/-- Non-vacuity. -/
example : Cmd.parse [bs "watch", bs "192.168.1.3:2101"] = some (.watch (bs "192.168.1.3:2101")) ∧
    Cmd.parse [bs "read", bs "--", bs "-v"] = some (.read (bs "-v")) ∧
    Cmd.parse [bs "read", bs "-v"] = none ∧ Cmd.parse [bs "watch", bs "a", bs "b"] = none ∧
    Cmd.parse [bs "read", []] = none ∧ Cmd.parse [bs "watch", []] = some (.watch []) ∧
    Cmd.parse [] = none := by decide

end Elk.Props
