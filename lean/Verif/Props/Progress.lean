import Verif.Lemmas.Progress

/-!
# C86: networks whose nodes render, render
-/

namespace Rawdio
open Processor

variable {S P C : Type}

/-- A program that makes its calls with care (`Holding.Careful`) can be rendered if each of its nodes on its own can be
run over the events of the session, whatever goes into it: no process call fails. Nothing else is asked of the nodes:
they may fail at other requests, or at requests that come too fast. -/
theorem C86_succeeds [AddZeroClass S] (ops : NodeOps S P C) (mf mc sr : Nat) (hm : 0 < mf)
    (program : Nat → List (ApiCall P C)) (hP : Network.Program program)
    (hc : ∀ n, Allowed (fun h c => h.Typed c ∧ h.Careful mc c) Holding.empty ((List.range n).flatMap program))
    (waiting ks : List (Call S P C)) (hks : ks ≠ []) (hk : ∀ k ∈ waiting ++ ks, k.Valid)
    (hd : Network.Delivered program waiting ks)
    (hn : ∀ es, ChainHistory mf sr (fun i => Network.requests (program i)) ks es →
      ∀ d ∈ Network.made (program 0), ∀ x, ∃ r, chainRun ops sr [d] es x = .ok r) :
    ∃ E, calls ops (new sr mc mf) (waiting ++ ks) = .ok E := by
  cases ks with
  | nil => exact absurd rfl hks
  | cons k0 ks =>
    obtain ⟨E, _, _, h, _⟩ := session_progress hm hP hc waiting k0 ks hk hd hn
    exact ⟨E, h⟩

end Rawdio
