import Verif.Model.ErrorText

/-! # C125: an error's text says which error it is -/

namespace Neutron.Props

open Neutron

/-- How an error's text begins. -/
def opening : NeutronError → List Char
  | .disconnected => ['D', 'i', 's']
  | .operationTimeout => ['O', 'p', 'e']
  | .unsupportedCommand => ['U', 'n', 's']
  | .decodeFailed => ['D', 'e', 'c']
  | .encodeFailed => ['E', 'n', 'c']
  | .channelTerminated => ['C', 'h', 'a']
  | .unresolvable => ['U', 'n', 'r']
  | .io => ['I', 'O', ' ']
  | .deserializationFailed => ['D', 'e', 's']
  | .serializationFailed => ['S', 'e', 'r']
  | .authenticationFailed _ => ['A', 'u', 't']
  | .connectionFailed => ['C', 'o', 'n']
  | .invalidUrl => ['I', 'n', 'v']
  | .pulsarError _ => ['P', 'u', 'l']

theorem take_display (e : NeutronError) : e.display.toList.take 3 = opening e := by
  cases e
  case authenticationFailed s =>
    change ("Authentication failed: " ++ s).toList.take 3 = ['A', 'u', 't']
    rw [String.toList_append, List.take_append_of_le_length (by decide)]
    decide
  case pulsarError s =>
    change ("Pulsar error: " ++ s).toList.take 3 = ['P', 'u', 'l']
    rw [String.toList_append, List.take_append_of_le_length (by decide)]
    decide
  all_goals decide

/-- Two errors that print the same are the same error. -/
theorem C125_text_identifies {e f : NeutronError} (h : e.display = f.display) : e = f := by
  have ho : opening e = opening f := by rw [← take_display, ← take_display, h]
  have details : ∀ (p s t : String), p ++ s = p ++ t → s = t := fun p s t hp => by
    have := congrArg String.toList hp
    simp only [String.toList_append] at this
    exact String.toList_inj.1 (List.append_cancel_left this)
  cases e <;> cases f <;> first
    | rfl
    | exact congrArg _ (details _ _ _ h)
    | (exfalso; simp [opening] at ho; done)

/-- The details of an error are in its text, whole and at its end. -/
theorem C125_details (s : String) :
    (∃ t, (NeutronError.authenticationFailed s).display = t ++ s) ∧ ∃ t, (NeutronError.pulsarError s).display = t ++ s :=
  ⟨⟨_, rfl⟩, _, rfl⟩

/-- Two different errors with the same details. (The hypotheses of C125_text_identifies and C125_details are met.) -/
example : (NeutronError.authenticationFailed "x").display ≠ (NeutronError.pulsarError "x").display ∧
    (NeutronError.pulsarError "x").display = "Pulsar error: x" := by decide

end Neutron.Props
