import Verif.Model.Fmt
import Verif.Props.Hash

/-!
# C77: what `Debug` prints
-/

namespace Baokeshed.Props
open Baokeshed.Model Baokeshed.Proofs

/-- C77.  Every `Hasher` and every `Output`, whatever key, input or chaining values it contains, prints as the same text: so nothing
about the contents can be learnt from it. -/
theorem C77_secret (h : Hasher) (o : Output) :
    Hasher.fmt h = some "Hasher { ... }".toList ∧ Output.fmt o = some "Output { ... }".toList := by
  constructor
  · show writeFmt "Hasher {{ ... }}".toList [] = _
    decide
  · show writeFmt "Output {{ ... }}".toList [] = _
    decide

/-- text without braces is printed as it is -/
theorem writeFmt_lit (t rest : List Char) (args : List (List Char)) (h : '{' ∉ t ∧ '}' ∉ t) :
    writeFmt (t ++ rest) args = (writeFmt rest args).map (t ++ ·) := by
  induction t with
  | nil => simp
  | cons c t ih =>
    have h1 : c ≠ '{' := fun e => h.1 (e ▸ List.mem_cons_self ..)
    have h2 : c ≠ '}' := fun e => h.2 (e ▸ List.mem_cons_self ..)
    have ih := ih ⟨fun k => h.1 (List.mem_cons_of_mem _ k), fun k => h.2 (List.mem_cons_of_mem _ k)⟩
    rw [List.cons_append, writeFmt, ih, Option.map_map]
    · rfl
    all_goals (intros; simp_all)

/-- C77.  A `Hash` prints as `Hash(0x`, its 64 hexadecimal digits and `)`; two hashes that print alike are equal. -/
theorem C77_hash (h h' : Vector Byte 32) :
    (∃ s, Hash.fmt h = .ok (some ("Hash(0x".toList ++ s ++ ")".toList)) ∧ Spec.IsHexOf s h.toList) ∧
    (Hash.fmt h = Hash.fmt h' → h = h') := by
  have e : ∀ h s, to_hex h = .ok s → Hash.fmt h = .ok (some ("Hash(0x".toList ++ s ++ ")".toList)) := by
    intro h s hs
    rw [Hash.fmt, hs]
    show Except.ok (writeFmt ("Hash(0x".toList ++ ("{})".toList)) [s]) = _
    rw [writeFmt_lit _ _ _ (by decide)]
    simp [writeFmt]
  refine ⟨⟨_, e h _ (to_hex_eq h), hexOf_isHexOf _⟩, fun hh => C18_injective h h' ?_⟩
  rw [e h _ (to_hex_eq h), e h' _ (to_hex_eq h')] at hh
  rw [to_hex_eq, to_hex_eq]
  have := Option.some.inj (Except.ok.inj hh)
  rw [List.append_cancel_right_eq, List.append_cancel_left_eq] at this
  rw [this]

/-- C77.  Conversion from and to arrays keeps the bytes. -/
theorem C77_convert (b : Vector Byte 32) : Hash.into (Hash.from b) = b ∧ Hash.from (Hash.into b) = b ∧
    Hash.eq (Hash.from b) b = true := ⟨rfl, rfl, (C19_eq _ _).2 fun _ _ => rfl⟩

-- format strings are interpreted
example : writeFmt "a{}b{{{}".toList ["xy".toList, "z".toList] = some "axyb{z".toList := by decide
example : writeFmt "{}".toList [] = none ∧ writeFmt "a".toList ["b".toList] = none := by decide

end Baokeshed.Props
