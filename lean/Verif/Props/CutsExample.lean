import Verif.Props.Cuts
import Verif.Props.StrayExample

/-!
# C156: instances
-/

namespace Neutron.Props.CutsExample

open Neutron.World Neutron.App Neutron.Sys EndToEndExample AppExample Session Trace ConfirmedExample Frame Proto

set_option maxRecDepth 20000

def got (x : App.State UInt8) (p : Bytes) : App.State UInt8 := AppExample.after x [.world (.arrive b0 (.data p))]

/-- A message for the consumer. -/
def hello : Bytes := bytes (wireMessage 0 1 [104, 105])

theorem got_step (p : Bytes) : App.step wcfg StrayExample.b1 (.world (.arrive b0 (.data p))) = some (got StrayExample.b1 p) := rfl
theorem got_step2 (p q : Bytes) :
    App.step wcfg (got StrayExample.b1 p) (.world (.arrive b0 (.data q))) = some (got (got StrayExample.b1 p) q) := rfl

/-- The hypotheses of C156_cuts and C156_same_future are met: while a consumer waits for a message, one arrives, whole or in two pieces; and the
action that reads it is possible. -/
example : Arrives wcfg b0 StrayExample.b1 [hello] (got StrayExample.b1 hello) ∧
    Arrives wcfg b0 StrayExample.b1 [hello.take 7, hello.drop 7] (got (got StrayExample.b1 (hello.take 7)) (hello.drop 7)) ∧
    [hello].flatten = [hello.take 7, hello.drop 7].flatten ∧
    Does wcfg (got StrayExample.b1 hello) [.world (.poll b0 none)] (heard StrayExample.b1 (wireMessage 0 1 [104, 105])) ∧
    ∃ z, Does wcfg (got (got StrayExample.b1 (hello.take 7)) (hello.drop 7)) [.world (.poll b0 none)] z ∧
      SameButUnread (heard StrayExample.b1 (wireMessage 0 1 [104, 105])) z := by
  have h1 : Arrives wcfg b0 StrayExample.b1 [hello] (got StrayExample.b1 hello) := .cons (got_step _) (.nil _)
  have h2 : Arrives wcfg b0 StrayExample.b1 [hello.take 7, hello.drop 7] (got (got StrayExample.b1 (hello.take 7)) (hello.drop 7)) :=
    .cons (got_step _) (.cons (got_step2 _ _) (.nil _))
  have h3 : [hello].flatten = [hello.take 7, hello.drop 7].flatten := by simp
  have h4 : App.exec wcfg StrayExample.b1 (hear (wireMessage 0 1 [104, 105])) = some (heard StrayExample.b1 (wireMessage 0 1 [104, 105])) :=
    hear_exec (wireMessage_frame 0 1 [104, 105] (by decide +kernel)) (by decide) rfl rfl true rfl rfl rfl
  have h5 : Does wcfg (got StrayExample.b1 hello) [.world (.poll b0 none)] (heard StrayExample.b1 (wireMessage 0 1 [104, 105])) := by
    simp only [hear, App.exec] at h4
    rw [show bytes (wireMessage 0 1 [104, 105]) = hello from rfl, got_step] at h4
    simp only [] at h4
    split at h4
    · rename_i y hy
      cases h4
      exact .cons hy (.nil _)
    · cases h4
  exact ⟨h1, h2, h3, h5, C156_same_future h1 h2 h3 (by simp) (by simp) h5⟩

end Neutron.Props.CutsExample
