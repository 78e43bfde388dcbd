import Verif.Model.AdsrExample
import Verif.Lemmas.ProgramSteps
import Verif.Lemmas.MixedHistory
import Verif.Spec.AdsrSchedule

/-! Helper lemmas about the example that plays notes with an ADSR envelope. -/

namespace Rawdio
namespace AdsrExample

open Network ProgramSteps

variable {sr mf : Nat} {voices : List OfflineExample.Voice} {a g s : Id} {sequence : ℕ → ℕ} {attack decay : ℝ} {sustain : Level}
  {release : ℝ} {notes : List (Int × Int)} {m : Mixer}

/-- The node of an oscillator. -/
noncomputable def oscNode (v : OfflineExample.Voice) : Dsp MixedNode :=
  ⟨v.id, 0, 1, .effect ⟨0, 1, .oscillator (Oscillator.new (Oscillator.makeSine Oscillator.tableSize 1)),
    FxKind.parameters [("frequency", v.frequency), ("gain", 1)]⟩⟩

/-- The node of the envelope. -/
noncomputable def adsrNode (sr mf : Nat) (i : Id) : Dsp MixedNode := ⟨i, 1, 1, .adsr ⟨1, AdsrProcessor.new sr mf⟩⟩

/-- The node of the gain. -/
noncomputable def gainNode (i : Id) : Dsp MixedNode := ⟨i, 1, 1, .effect ⟨1, 1, .gain, FxKind.parameters [("gain", 1)]⟩⟩

/-- The node of the splitter. -/
def splitNode (i : Id) (m : Mixer) : Dsp MixedNode := ⟨i, 1, 2, .mixer ⟨1, 2, m⟩⟩

/-- The nodes with the requests to them. -/
noncomputable def parts (sr mf : Nat) (voices : List OfflineExample.Voice) (a g s : Id) (sequence : ℕ → ℕ) (attack decay : ℝ)
    (sustain : Level) (release : ℝ) (m : Mixer) : List (Dsp MixedNode × List MixedRequest) :=
  voices.map (fun v => (oscNode v, [.parameter (.change "gain" ⟨v.level, Timestamp.zero, .immediate⟩)])) ++
    [(adsrNode sr mf a, (adsrNotes sequence attack decay sustain release []).map .adsr), (gainNode g, []),
      (splitNode s m, [])]

/-- The events of the notes. -/
noncomputable def noteRequests (sr mf : Nat) (a : Id) (sequence : ℕ → ℕ) (notes : List (Int × Int)) :
    List (GraphNode × MixedRequest) :=
  (adsrNotes.go sequence 4 notes).map fun e => (handleOf (adsrNode sr mf a), .adsr e)

/-- The connections. -/
noncomputable def pairs (sr mf : Nat) (voices : List OfflineExample.Voice) (a g s : Id) (m : Mixer) : List (GraphNode × GraphNode) :=
  voices.map (fun v => (handleOf (oscNode v), handleOf (adsrNode sr mf a))) ++
    [(handleOf (adsrNode sr mf a), handleOf (gainNode g)), (handleOf (gainNode g), handleOf (splitNode s m))]

/-- All calls. -/
noncomputable def allCalls (sr mf : Nat) (voices : List OfflineExample.Voice) (a g s : Id) (sequence : ℕ → ℕ) (attack decay : ℝ)
    (sustain : Level) (release : ℝ) (notes : List (Int × Int)) (m : Mixer) : List (ApiCall MixedNode MixedRequest) :=
  build (parts sr mf voices a g s sequence attack decay sustain release m) (noteRequests sr mf a sequence notes)
    (pairs sr mf voices a g s m) (some (handleOf (splitNode s m)))

theorem notes_eq (d : Dsp MixedNode) (n : ℕ) : scheduleNotes d sequence n notes =
    (adsrNotes.go sequence n notes).map fun e => .change (handle d) (.adsr e) := by
  induction notes generalizing n with
  | nil => rfl
  | cons x notes ih =>
    rw [scheduleNotes, adsrNotes.go, ih]
    rfl

theorem program_eq (hm : Mixer.monoToStereoSplitter = .ok m) :
    program sr mf voices a g s sequence attack decay sustain release notes =
      .ok (allCalls sr mf voices a g s sequence attack decay sustain release notes m) := by
  have h1 : voices.mapM (fun v => (kind v).make sr mf v.id) = .ok (voices.map oscNode) :=
    Chain.mapM_pure _ _ _ fun v _ => rfl
  rw [program, h1]
  simp only [bind, Except.bind, NodeKind.make, FxKind.make, pure, Except.pure, hm]
  rw [OfflineExample.zip_map_self, notes_eq]
  simp only [allCalls, build, parts, noteRequests, pairs, List.flatMap_append, List.map_append, List.flatMap_map,
    List.map_map, Function.comp_def, List.append_assoc]
  rfl

/-- The identities are distinct. -/
def Distinct (voices : List OfflineExample.Voice) (a g s : Id) : Prop := (voices.map OfflineExample.Voice.id ++ [a, g, s]).Nodup

theorem allowed_all (mc : Nat) (hmc : 2 ≤ mc) (hd : Distinct voices a g s) (hl : voices.length ≤ 1019) :
    Allowed (fun h c => h.Typed c ∧ h.Careful mc c) Holding.empty
      (allCalls sr mf voices a g s sequence attack decay sustain release notes m) := by
  have hd' := hd
  rw [Distinct, List.nodup_append] at hd'
  obtain ⟨d1, d2, d3⟩ := hd'
  simp only [List.nodup_cons, List.mem_cons, List.not_mem_nil, or_false, not_or, List.nodup_nil, and_true,
    not_false_eq_true] at d2
  have hv : ∀ v ∈ voices, v.id ≠ a ∧ v.id ≠ g ∧ v.id ≠ s := by
    intro v hv
    have := d3 v.id (List.mem_map_of_mem hv)
    exact ⟨this a (by simp), this g (by simp), this s (by simp)⟩
  refine build_allowed mc ?_ ?_ ?_ ?_ ?_ ?_ (fun i => if i = s then 3 else if i = g then 2 else if i = a then 1 else 0) ?_ ?_
  · have : (parts sr mf voices a g s sequence attack decay sustain release m).map (fun a => a.1.id) =
        voices.map OfflineExample.Voice.id ++ [a, g, s] := by
      simp [parts, oscNode, adsrNode, gainNode, splitNode]
    rw [this]
    exact hd
  · intro x hx
    simp only [parts, List.mem_append, List.mem_map, List.mem_cons, List.not_mem_nil, or_false] at hx
    rcases hx with ⟨v, _, rfl⟩ | rfl | rfl | rfl <;> constructor <;>
      simp only [oscNode, adsrNode, gainNode, splitNode] <;> omega
  · simp only [parts, List.length_append, List.length_map, List.length_cons, List.length_nil]
    omega
  · intro x hx
    obtain ⟨e, _, rfl⟩ := List.mem_map.mp hx
    simp [parts]
  · intro p hp
    simp only [pairs, List.mem_append, List.mem_map, List.mem_cons, List.not_mem_nil, or_false] at hp
    rcases hp with ⟨v, hv, rfl⟩ | rfl | rfl
    · refine ⟨?_, by simp [parts]⟩
      simp only [parts, List.map_append, List.mem_append, List.map_map, List.mem_map]
      exact .inl ⟨v, hv, rfl⟩
    · exact ⟨by simp [parts], by simp [parts]⟩
    · exact ⟨by simp [parts], by simp [parts]⟩
  · simp [parts]
  · intro p hp
    simp only [pairs, List.mem_append, List.mem_map, List.mem_cons, List.not_mem_nil, or_false] at hp
    rcases hp with ⟨v, hv', rfl⟩ | rfl | rfl
    · obtain ⟨v1, v2, v3⟩ := hv v hv'
      simp [handleOf, oscNode, adsrNode, v1, v2, v3, d2]
    · simp [handleOf, adsrNode, gainNode, d2]
    · simp [handleOf, gainNode, splitNode, d2]
  · have : (pairs sr mf voices a g s m).map (fun p => (p.1.id, p.2.id)) =
        (voices.map OfflineExample.Voice.id).map (fun i => (i, a)) ++ [(a, g), (g, s)] := by
      simp [pairs, handleOf, oscNode, adsrNode, gainNode, splitNode]
    rw [this, List.nodup_append]
    refine ⟨d1.map fun x y h => (Prod.mk.inj h).1, ?_, ?_⟩
    · simp [d2]
    · intro x hx y hy
      obtain ⟨i, hi, rfl⟩ := List.mem_map.mp hx
      obtain ⟨v, hv', rfl⟩ := List.mem_map.mp hi
      simp only [List.mem_cons, List.not_mem_nil, or_false] at hy
      rcases hy with rfl | rfl
      · intro h
        exact (hv v hv').1 (Prod.mk.inj h).1
      · intro h
        exact (hv v hv').2.1 (Prod.mk.inj h).1

theorem plain_all (hd : Distinct voices a g s) :
    Plain (made (allCalls sr mf voices a g s sequence attack decay sustain release notes m))
      (links (allCalls sr mf voices a g s sequence attack decay sustain release notes m))
      (input (allCalls sr mf voices a g s sequence attack decay sustain release notes m)) := by
  rw [Distinct, List.nodup_append] at hd
  obtain ⟨d1, d2, d3⟩ := hd
  simp only [List.nodup_cons, List.mem_cons, List.not_mem_nil, or_false, not_or, List.nodup_nil, and_true,
    not_false_eq_true] at d2
  apply build_plain
  intro p hp x hx hid
  have h1 : p.1.outputCount = 1 ∧ p.1.id ≠ s := by
    simp only [pairs, List.mem_append, List.mem_map, List.mem_cons, List.not_mem_nil, or_false] at hp
    rcases hp with ⟨v, hv, rfl⟩ | rfl | rfl
    · exact ⟨rfl, d3 v.id (List.mem_map_of_mem hv) s (by simp)⟩
    · exact ⟨rfl, d2.1.2⟩
    · exact ⟨rfl, d2.2⟩
  simp only [parts, List.mem_append, List.mem_map, List.mem_cons, List.not_mem_nil, or_false] at hx
  rw [h1.1]
  rcases hx with ⟨v, _, rfl⟩ | rfl | rfl | rfl
  · exact le_refl _
  · exact le_refl _
  · exact le_refl _
  · exact absurd hid.symm h1.2

theorem requests_all : requests (allCalls sr mf voices a g s sequence attack decay sustain release notes m) =
    voices.map (fun v => (v.id, .parameter (.change "gain" ⟨v.level, Timestamp.zero, .immediate⟩))) ++
      (adsrNotes sequence attack decay sustain release notes).map fun e => (a, .adsr e) := by
  rw [allCalls, build_requests]
  simp only [parts, noteRequests, List.flatMap_append, List.flatMap_map, List.map_map, Function.comp_def, List.append_assoc]
  congr 1
  rw [show voices.flatMap (fun v => [(.parameter (.change "gain" ⟨v.level, Timestamp.zero, .immediate⟩) : MixedRequest)].map
    fun r => ((oscNode v).id, r)) = voices.flatMap (fun v => [(v.id,
      (.parameter (.change "gain" ⟨v.level, Timestamp.zero, .immediate⟩) : MixedRequest))]) from rfl]
  exact List.flatMap_pure_eq_map ..

end AdsrExample
end Rawdio
