import Verif.Lemmas.RenderInv

/-! Helper lemmas: a process call in terms of the specification. -/

namespace Rawdio
namespace DspGraph

open Graph

variable {S P C : Type}

theorem ran_of_shows [Zero S] [Add S] {D : Dims} {ops : NodeOps S P C} {n : Nat} {t : Int}
    {g : Graph (Dsp P) Connection} {p q : Patch Connection} (hp : g.Shows p) (hq : g.Shows q)
    {base : Id → Nat → Nat → S} {before after : Id → Option (Dsp P)} {sig : Signals S}
    (h : ∀ i ∈ q.nodes, Ran D ops n t q base before after sig i) :
    ∀ i ∈ p.nodes, Ran D ops n t p base before after sig i := by
  intro i hi
  have := h i ((hq.nodes i).mpr ((hp.nodes i).mp hi))
  unfold Ran at this ⊢
  rw [at_of_shows hp hq hi]
  exact this

theorem inputFits_of_fits [Zero S] [Add S] {G : DspGraph S P} {p : Patch Connection} {ch : Nat}
    (h : G.Fits p ch) (i : Id) : InputFits ch (p.at' i .incoming) := by
  intro _ kk hk
  exact .inr (h.2 kk (mem_at.mp hk).1)

theorem shows_length {N E : Type} {g : Graph N E} {p q : Patch E} (hp : g.Shows p) (hq : g.Shows q)
    (hn : q.nodes.Nodup) : q.nodes.length ≤ p.nodes.length := by
  refine (List.subperm_of_subset hn ?_).length_le
  intro i hi
  exact (hp.nodes i).mpr ((hq.nodes i).mp hi)

theorem block_spec [AddZeroClass S] {ops : NodeOps S P C} {mf mc sr : Nat} (hm : 0 < mf)
    {G G' : DspGraph S P} (hG : Reachable ops mf mc sr G) {p : Patch Connection}
    (hp : G.graph.Shows p) {env : Env} {input output o' : Buf S} {t : Int}
    (hv : ValidBlock input output) (h : G.process ops env input output t = .ok (o', G')) :
    ∃ sig, Rendered ops p G.graph.getNode (min output.frameCount mf) sr t
        (p.received (arrivesFromSystem (G.inputEndpoint.map Endpoint.dsp) input
          (min input.channelCount mc) (min output.frameCount mf))) sig G'.graph.getNode ∧
      (∀ c f, o'.sample? c f = outputSample (output.sample? c f)
        (G.outputEndpoint.bind (fun ep => if ep.dsp ∈ p.nodes then some (sig ep.dsp) else none))
        (min output.channelCount mc) (min output.frameCount mf) c f) ∧
      output.SameShape o' := by
  obtain ⟨q, hq⟩ := reachable_inv hm hG
  obtain ⟨sig, hd⟩ := process_ok hq hv.inWF hv.outWF hv.writable hv.nonempty hm hv.enough h
  have hqs := hq.rep.shows
  refine ⟨sig, ⟨?_, ?_⟩, ?_, hd.shape⟩
  · intro n hn
    obtain ⟨d, out, st, r1, r2, r3, r4, _⟩ := ran_of_shows hp hqs hd.ran n hn
    refine ⟨d, out, st, r1, ?_, r3, fun c f => by rw [r4]⟩
    rw [← r2]
    congr 2
    apply window_congr
    intro c f _ hf
    have hb : baseOf (G.inputEndpoint.map Endpoint.dsp)
        (systemInput input (min input.channelCount mc) (min output.frameCount mf)) =
        arrivesFromSystem (G.inputEndpoint.map Endpoint.dsp) input (min input.channelCount mc)
          (min output.frameCount mf) := by
      funext i c f
      unfold baseOf systemInput arrivesFromSystem
      by_cases hi : G.inputEndpoint.map Endpoint.dsp = some i
      · simp [hi]
      · simp [hi, silence]
    simp only [hb]
    exact (builtInput_eq hf).symm
  · intro n hn
    have h1 : n ∉ q.nodes := fun h' => hn ((hp.nodes n).mpr ((hqs.nodes n).mp h'))
    cases hg : G'.graph.getNode n with
    | none => rfl
    | some d => exact absurd ((hd.inv.rep.shows.nodes n).mpr ⟨d, hg⟩) h1
  · intro c f
    rw [hd.out c f]
    congr 1
    congr 1
    funext ep
    have : ep.dsp ∈ q.nodes ↔ ep.dsp ∈ p.nodes := by rw [hqs.nodes, hp.nodes]
    simp only [this]

end DspGraph
end Rawdio
