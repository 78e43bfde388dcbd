import Verif.Model.OfflineExample
import Verif.Lemmas.NetworkRun
import Verif.Lemmas.EffectRun

/-! Helper lemmas about the example that renders oscillators through a gain and a pan. -/

namespace Rawdio
namespace OfflineExample

open Network

/-- The node of an oscillator. -/
noncomputable def oscNode (v : Voice) : Dsp FxNode :=
  ⟨v.id, 0, 2, ⟨0, 2, .oscillator (Oscillator.new (Oscillator.makeSine Oscillator.tableSize 1)),
    FxKind.parameters [("frequency", v.frequency), ("gain", 1)]⟩⟩

/-- The node of the gain. -/
noncomputable def gainNode (i : Id) : Dsp FxNode := ⟨i, 2, 2, ⟨2, 2, .gain, FxKind.parameters [("gain", 1)]⟩⟩

/-- The node of the pan. -/
noncomputable def panNode (i : Id) : Dsp FxNode := ⟨i, 2, 2, ⟨2, 2, .pan, FxKind.parameters [("pan", 0)]⟩⟩

/-- The calls that make the oscillators. -/
noncomputable def voiceCalls (voices : List Voice) : List (ApiCall FxNode ParameterRequest) :=
  voices.flatMap fun v => [create (oscNode v), setFromStart (oscNode v) "gain" v.level]

/-- The calls that make the gain and the pan. -/
noncomputable def restCalls (g p : Id) (level : ℝ) (pans : List (ParameterChange ℝ)) :
    List (ApiCall FxNode ParameterRequest) :=
  [create (gainNode g), setFromStart (gainNode g) "gain" level] ++
    create (panNode p) :: pans.map (fun c => .change (handle (panNode p)) (.change "pan" c))

/-- The calls that connect them. -/
noncomputable def linkCalls (voices : List Voice) (g p : Id) : List (ApiCall FxNode ParameterRequest) :=
  voices.map (fun v => .connectTo (handle (oscNode v)) (handle (gainNode g))) ++
    [.connectTo (handle (gainNode g)) (handle (panNode p)), .connectToOutput (handle (panNode p)), .start]

theorem zip_map_self {α β : Type} (f : α → β) (l : List α) : (l.map f).zip l = l.map fun a => (f a, a) := by
  induction l with
  | nil => rfl
  | cons a l ih => simp [ih]

theorem program_eq (sr mf : Nat) (voices : List Voice) (g p : Id) (level : ℝ) (pans : List (ParameterChange ℝ)) :
    program sr mf voices g p level pans = .ok (voiceCalls voices ++ restCalls g p level pans ++ linkCalls voices g p) := by
  have h1 : voices.mapM (fun v => (kind v).make sr mf v.id) = .ok (voices.map oscNode) :=
    Chain.mapM_pure _ _ _ fun v _ => rfl
  rw [program, h1]
  simp only [bind, Except.bind, FxKind.make, pure, Except.pure]
  simp only [zip_map_self, List.flatMap_map, List.map_map, voiceCalls, restCalls, linkCalls, Function.comp_def, gainNode,
    panNode, List.append_assoc]

/-- The identities are distinct. -/
def Distinct (voices : List Voice) (g p : Id) : Prop :=
  (voices.map Voice.id).Nodup ∧ g ∉ voices.map Voice.id ∧ p ∉ voices.map Voice.id ∧ g ≠ p

variable {voices : List Voice} {g p : Id} {level : ℝ} {pans : List (ParameterChange ℝ)}

theorem made_voices : made (voiceCalls voices) = voices.map oscNode := by
  induction voices with
  | nil => rfl
  | cons v vs ih =>
    rw [voiceCalls] at ih ⊢
    rw [List.flatMap_cons, made_append, ih]
    rfl

theorem made_rest : made (restCalls g p level pans) = [gainNode g, panNode p] := by
  have : made (pans.map fun c => (ApiCall.change (handle (panNode p)) (.change "pan" c) :
      ApiCall FxNode ParameterRequest)) = [] := by
    induction pans with
    | nil => rfl
    | cons c cs ih => simpa [made] using ih
  rw [restCalls, made_append]
  exact congrArg _ (congrArg _ this)

theorem made_links : made (linkCalls voices g p) = [] := by
  rw [linkCalls, made_append]
  have : made (voices.map fun v => (ApiCall.connectTo (handle (oscNode v)) (handle (gainNode g)) :
      ApiCall FxNode ParameterRequest)) = [] := by
    induction voices with
    | nil => rfl
    | cons c cs ih => simpa [made] using ih
  rw [this]
  rfl

/-- All calls. -/
noncomputable def allCalls (voices : List Voice) (g p : Id) (level : ℝ) (pans : List (ParameterChange ℝ)) :
    List (ApiCall FxNode ParameterRequest) :=
  voiceCalls voices ++ restCalls g p level pans ++ linkCalls voices g p

theorem made_all : made (allCalls voices g p level pans) = voices.map oscNode ++ [gainNode g, panNode p] := by
  rw [allCalls, made_append, made_append, made_voices, made_rest, made_links, List.append_nil]

theorem links_all : links (allCalls voices g p level pans) =
    voices.map (fun v => ⟨v.id, g, 0, 0, 2⟩) ++ [⟨g, p, 0, 0, 2⟩] := by
  have h1 : links (voiceCalls voices) = [] := by
    induction voices with
    | nil => rfl
    | cons v vs ih =>
      rw [voiceCalls] at ih ⊢
      rw [List.flatMap_cons, links_append, ih]
      rfl
  have h2 : links (restCalls g p level pans) = [] := by
    have : links (pans.map fun c => (ApiCall.change (handle (panNode p)) (.change "pan" c) :
        ApiCall FxNode ParameterRequest)) = [] := by
      induction pans with
      | nil => rfl
      | cons c cs ih => simpa [links] using ih
    rw [restCalls, links_append]
    exact congrArg _ this
  have h3 : links (voices.map fun v => (ApiCall.connectTo (handle (oscNode v)) (handle (gainNode g)) :
      ApiCall FxNode ParameterRequest)) = voices.map (fun v => ⟨v.id, g, 0, 0, 2⟩) := by
    induction voices with
    | nil => rfl
    | cons c cs ih =>
      rw [voiceCalls] at h1
      simp [links] at h1 ih ⊢
      simp [handle, oscNode, gainNode] at *
  rw [allCalls, links_append, links_append, h1, h2, linkCalls, links_append, h3]
  rfl

theorem input_all : input (allCalls voices g p level pans) = none := by
  rw [input, List.findSome?_eq_none_iff]
  intro c hc
  rw [List.mem_reverse] at hc
  simp only [allCalls, voiceCalls, restCalls, linkCalls, List.mem_append, List.mem_flatMap, List.mem_cons, List.mem_map,
    List.not_mem_nil, or_false] at hc
  rcases hc with ((⟨v, _, rfl | rfl⟩ | ((rfl | rfl) | rfl | ⟨c, _, rfl⟩)) | (⟨v, _, rfl⟩ | (rfl | rfl | rfl))) <;> rfl

theorem output_all : output (allCalls voices g p level pans) = some p := by
  rw [output, allCalls, linkCalls, List.reverse_append, List.reverse_append]
  rfl

theorem builds_all : ∀ c ∈ allCalls voices g p level pans, c.Builds := by
  intro c hc
  simp only [allCalls, voiceCalls, restCalls, linkCalls, List.mem_append, List.mem_flatMap, List.mem_cons, List.mem_map,
    List.not_mem_nil, or_false] at hc
  rcases hc with ((⟨v, _, rfl | rfl⟩ | ((rfl | rfl) | rfl | ⟨c, _, rfl⟩)) | (⟨v, _, rfl⟩ | (rfl | rfl | rfl))) <;> trivial

theorem voices_allowed (vs : List Voice) : ∀ h : Holding, (vs.map Voice.id).Nodup →
    (∀ v ∈ vs, ∀ x ∈ h.nodes, x.id ≠ v.id) → Allowed Holding.Typed h (voiceCalls vs) ∧
      (h.afterAll (voiceCalls vs)).nodes = h.nodes ++ vs.map fun v => ⟨v.id, 0, 2⟩ := by
  induction vs with
  | nil => intro h _ _; exact ⟨trivial, by simp [voiceCalls, Holding.afterAll]⟩
  | cons v vs ih =>
    intro h hn hf
    rw [List.map_cons, List.nodup_cons] at hn
    have := ih { h with nodes := h.nodes ++ [⟨v.id, 0, 2⟩] } hn.2 (by
      intro w hw x hx
      rw [List.mem_append, List.mem_singleton] at hx
      rcases hx with hx | rfl
      · exact hf w (by simp [hw]) x hx
      · intro he
        have he : v.id = w.id := he
        rw [he] at hn
        exact hn.1 (List.mem_map_of_mem hw))
    constructor
    · refine ⟨fun x hx => hf v (by simp) x hx, ⟨⟨v.id, 0, 2⟩, ?_, rfl, rfl⟩, this.1⟩
      simp [Holding.after, create, oscNode]
    · exact this.2.trans (by simp)

theorem changes_allowed (h : Holding) (d : Dsp FxNode) (hd : h.Holds (handle d)) (cs : List (ParameterChange ℝ)) :
    Allowed Holding.Typed h (cs.map fun c => (.change (handle d) (.change "pan" c) : ApiCall FxNode ParameterRequest)) ∧
      h.afterAll (cs.map fun c => (.change (handle d) (.change "pan" c) : ApiCall FxNode ParameterRequest)) = h := by
  induction cs with
  | nil => exact ⟨trivial, rfl⟩
  | cons c cs ih => exact ⟨⟨hd, ih.1⟩, ih.2⟩

theorem connects_allowed (g : Id) (vs : List Voice) : ∀ h : Holding, h.Holds (handle (gainNode g)) →
    (∀ v ∈ vs, h.Holds (handle (oscNode v))) →
    Allowed Holding.Typed h (vs.map fun v =>
      (.connectTo (handle (oscNode v)) (handle (gainNode g)) : ApiCall FxNode ParameterRequest)) ∧
      (h.afterAll (vs.map fun v =>
      (.connectTo (handle (oscNode v)) (handle (gainNode g)) : ApiCall FxNode ParameterRequest))).nodes = h.nodes := by
  induction vs with
  | nil => intro h _ _; exact ⟨trivial, rfl⟩
  | cons v vs ih =>
    intro h hg hv
    have := ih (h.after (.connectTo (handle (oscNode v)) (handle (gainNode g)) : ApiCall FxNode ParameterRequest)) hg
      (fun w hw => hv w (by simp [hw]))
    exact ⟨⟨⟨hv v (by simp), hg⟩, this.1⟩, this.2⟩

theorem typed_all (hd : Distinct voices g p) :
    Allowed Holding.Typed Holding.empty (allCalls voices g p level pans) := by
  obtain ⟨d1, d2, d3, d4⟩ := hd
  obtain ⟨a1, a2⟩ := voices_allowed voices Holding.empty d1 (by simp [Holding.empty])
  rw [allCalls, allowed_append, allowed_append]
  have hn : Holding.empty.nodes ++ voices.map (fun v => (⟨v.id, 0, 2⟩ : Held)) = voices.map fun v => ⟨v.id, 0, 2⟩ := rfl
  rw [hn] at a2
  generalize hH : Holding.empty.afterAll (voiceCalls voices) = H at *
  have hafter : Holding.empty.afterAll (voiceCalls voices ++ restCalls g p level pans) =
      H.afterAll (restCalls g p level pans) := by
    rw [Holding.afterAll, List.foldl_append]
    rw [Holding.afterAll] at hH
    rw [hH]
    rfl
  have hc := changes_allowed { H with nodes := (H.nodes ++ [⟨g, 2, 2⟩]) ++ [⟨p, 2, 2⟩] } (panNode p)
    ⟨⟨p, 2, 2⟩, by simp, rfl, rfl⟩ pans
  have hrest : H.afterAll (restCalls g p level pans) = { H with nodes := (H.nodes ++ [⟨g, 2, 2⟩]) ++ [⟨p, 2, 2⟩] } :=
    hc.2
  rw [hafter, hrest]
  have hv : ∀ v ∈ voices, ∀ ls, Holding.Holds ⟨(H.nodes ++ [⟨g, 2, 2⟩]) ++ [⟨p, 2, 2⟩], ls⟩ (handle (oscNode v)) := by
    intro v hv ls
    exact ⟨⟨v.id, 0, 2⟩, by simp only [a2, List.mem_append, List.mem_map]; exact .inl (.inl ⟨v, hv, rfl⟩), rfl, rfl⟩
  have hg : ∀ ls, Holding.Holds ⟨(H.nodes ++ [⟨g, 2, 2⟩]) ++ [⟨p, 2, 2⟩], ls⟩ (handle (gainNode g)) :=
    fun ls => ⟨⟨g, 2, 2⟩, by simp, rfl, rfl⟩
  have hp : ∀ ls, Holding.Holds ⟨(H.nodes ++ [⟨g, 2, 2⟩]) ++ [⟨p, 2, 2⟩], ls⟩ (handle (panNode p)) :=
    fun ls => ⟨⟨p, 2, 2⟩, by simp, rfl, rfl⟩
  refine ⟨⟨a1, ?_⟩, ?_⟩
  · refine ⟨?_, ⟨⟨g, 2, 2⟩, by simp [Holding.after, create, gainNode], rfl, rfl⟩, ?_, hc.1⟩
    · intro x hx
      rw [a2, List.mem_map] at hx
      obtain ⟨v, hv, rfl⟩ := hx
      intro he
      exact d2 (List.mem_map.mpr ⟨v, hv, he⟩)
    · intro x hx
      simp only [Holding.after, create, setFromStart, a2, List.mem_append, List.mem_map, List.mem_singleton] at hx
      rcases hx with ⟨v, hv, rfl⟩ | rfl
      · intro he
        exact d3 (List.mem_map.mpr ⟨v, hv, he⟩)
      · exact d4
  · rw [linkCalls, allowed_append]
    obtain ⟨c1, c2⟩ := connects_allowed g voices _ (hg H.links) (fun v hv' => hv v hv' _)
    refine ⟨c1, ?_⟩
    generalize hK : Holding.afterAll _ _ = K at c2
    have hK' : ∀ x, Holding.Holds ⟨(H.nodes ++ [⟨g, 2, 2⟩]) ++ [⟨p, 2, 2⟩], K.links⟩ x → K.Holds x := by
      rintro x ⟨y, hy, hy2⟩
      exact ⟨y, by rw [c2]; exact hy, hy2⟩
    exact ⟨⟨hK' _ (hg _), hK' _ (hp _)⟩, hK' _ (hp _), trivial, trivial⟩

theorem allowed_and {P C : Type} {a b : Holding → ApiCall P C → Prop} (cs : List (ApiCall P C)) : ∀ h : Holding,
    Allowed a h cs → Allowed b h cs → Allowed (fun h c => a h c ∧ b h c) h cs := by
  induction cs with
  | nil => intro h _ _; trivial
  | cons c cs ih => intro h h1 h2; exact ⟨⟨h1.1, h2.1⟩, ih _ h1.2 h2.2⟩

theorem voices_careful {mc : Nat} (hmc : 2 ≤ mc) (vs : List Voice) : ∀ h : Holding, h.nodes.length + vs.length ≤ 1022 →
    Allowed (fun h c => h.Careful mc c) h (voiceCalls vs) ∧ (h.afterAll (voiceCalls vs)).links = h.links ∧
      (h.afterAll (voiceCalls vs)).nodes.length = h.nodes.length + vs.length := by
  induction vs with
  | nil => intro h _; exact ⟨trivial, rfl, rfl⟩
  | cons v vs ih =>
    intro h hl
    rw [List.length_cons] at hl ⊢
    obtain ⟨i1, i2, i3⟩ := ih { h with nodes := h.nodes ++ [⟨v.id, 0, 2⟩] } (by
      rw [List.length_append, List.length_singleton]; omega)
    refine ⟨⟨⟨Nat.zero_le _, hmc, by omega⟩, trivial, i1⟩, i2, i3.trans ?_⟩
    rw [List.length_append, List.length_singleton]
    omega

theorem acyclic_of_rank {h : Holding} (rank : Id → Nat) (hr : ∀ l ∈ h.links, rank l.src < rank l.dst) : h.Acyclic := by
  have hlt : ∀ a b, Relation.TransGen h.Joined a b → rank a < rank b := by
    intro a b hab
    induction hab with
    | single h' => obtain ⟨l, hl, rfl, rfl⟩ := h'; exact hr l hl
    | tail _ h' ih => obtain ⟨l, hl, rfl, rfl⟩ := h'; exact ih.trans (hr l hl)
  exact fun n hn => lt_irrefl _ (hlt n n hn)

theorem connects_careful {mc : Nat} (g : Id) (rank : Id → Nat) (vs : List Voice) : ∀ h : Holding,
    (∀ l ∈ h.links, rank l.src < rank l.dst) → (∀ v ∈ vs, rank v.id < rank g) → (vs.map Voice.id).Nodup →
    (∀ v ∈ vs, ∀ l ∈ h.links, l.src ≠ v.id) →
    Allowed (fun h c => h.Careful mc c) h (vs.map fun v =>
      (.connectTo (handle (oscNode v)) (handle (gainNode g)) : ApiCall FxNode ParameterRequest)) ∧
      (h.afterAll (vs.map fun v =>
      (.connectTo (handle (oscNode v)) (handle (gainNode g)) : ApiCall FxNode ParameterRequest))).links =
        h.links ++ vs.map fun v => ⟨v.id, g, 0, 0, 2⟩ := by
  induction vs with
  | nil => intro h _ _ _ _; exact ⟨trivial, by simp [Holding.afterAll]⟩
  | cons v vs ih =>
    intro h h1 h2 h3 h4
    rw [List.map_cons, List.nodup_cons] at h3
    have h5 : ∀ l ∈ h.links ++ [(⟨v.id, g, 0, 0, 2⟩ : Link)], rank l.src < rank l.dst := by
      intro l hl
      rw [List.mem_append, List.mem_singleton] at hl
      rcases hl with hl | rfl
      · exact h1 l hl
      · exact h2 v (by simp)
    obtain ⟨i1, i2⟩ := ih (h.after (.connectTo (handle (oscNode v)) (handle (gainNode g)) : ApiCall FxNode ParameterRequest))
      h5 (fun w hw => h2 w (by simp [hw])) h3.2 (by
        intro w hw l hl
        have hl : l ∈ h.links ++ [(⟨v.id, g, 0, 0, 2⟩ : Link)] := hl
        rw [List.mem_append, List.mem_singleton] at hl
        rcases hl with hl | rfl
        · exact h4 w (by simp [hw]) l hl
        · intro he
          have he : v.id = w.id := he
          exact h3.1 (he ▸ List.mem_map_of_mem hw))
    refine ⟨⟨⟨?_, acyclic_of_rank rank h5⟩, i1⟩, i2.trans ?_⟩
    · rintro ⟨l, hl, hs, _⟩
      exact h4 v (by simp) l hl hs
    · simp [Holding.after, handle, oscNode, gainNode]

theorem careful_all {mc : Nat} (hmc : 2 ≤ mc) (hd : Distinct voices g p) (hl : voices.length + 2 ≤ 1022) :
    Allowed (fun h c => h.Careful mc c) Holding.empty (allCalls voices g p level pans) := by
  obtain ⟨d1, d2, d3, d4⟩ := hd
  obtain ⟨a1, a2, a3⟩ := voices_careful hmc voices Holding.empty (by simp [Holding.empty]; omega)
  rw [allCalls, allowed_append, allowed_append]
  generalize hH : Holding.empty.afterAll (voiceCalls voices) = H at *
  have hafter : Holding.empty.afterAll (voiceCalls voices ++ restCalls g p level pans) =
      H.afterAll (restCalls g p level pans) := by
    rw [Holding.afterAll, List.foldl_append]
    rw [Holding.afterAll] at hH
    rw [hH]
    rfl
  have hc := changes_allowed { H with nodes := (H.nodes ++ [⟨g, 2, 2⟩]) ++ [⟨p, 2, 2⟩] } (panNode p)
    ⟨⟨p, 2, 2⟩, by simp, rfl, rfl⟩ pans
  have hrest : H.afterAll (restCalls g p level pans) = { H with nodes := (H.nodes ++ [⟨g, 2, 2⟩]) ++ [⟨p, 2, 2⟩] } :=
    hc.2
  rw [hafter, hrest]
  have hch : ∀ (cs : List (ParameterChange ℝ)) (h : Holding), Allowed (fun h c => h.Careful mc c) h
      (cs.map fun c => (.change (handle (panNode p)) (.change "pan" c) : ApiCall FxNode ParameterRequest)) := by
    intro cs
    induction cs with
    | nil => intro h; trivial
    | cons c cs ih => intro h; exact ⟨trivial, ih _⟩
  have hnl : H.nodes.length = voices.length := by rw [a3]; simp [Holding.empty]
  have hll : H.links = [] := a2
  refine ⟨⟨a1, ?_⟩, ?_⟩
  · refine ⟨⟨hmc, hmc, by omega⟩, trivial, ⟨hmc, hmc, ?_⟩, hch pans _⟩
    simp only [Holding.after, create, setFromStart, List.length_append, List.length_singleton]
    omega
  · rw [linkCalls, allowed_append]
    let rank : Id → Nat := fun i => if i = p then 2 else if i = g then 1 else 0
    have hrg : rank g = 1 := by simp [rank, d4]
    have hrp : rank p = 2 := by simp [rank]
    have hrv : ∀ v ∈ voices, rank v.id = 0 := by
      intro v hv
      simp only [rank]
      rw [if_neg (fun h : v.id = p => d3 (h ▸ List.mem_map_of_mem hv)),
        if_neg (fun h : v.id = g => d2 (h ▸ List.mem_map_of_mem hv))]
    obtain ⟨c1, c2⟩ := connects_careful (mc := mc) g rank voices { H with nodes := (H.nodes ++ [⟨g, 2, 2⟩]) ++ [⟨p, 2, 2⟩] }
      (by simp [hll]) (by intro v hv; rw [hrv v hv, hrg]; omega) d1 (by simp [hll])
    refine ⟨c1, ?_⟩
    generalize hK : Holding.afterAll _ _ = K at c2 ⊢
    simp only [hll, List.nil_append] at c2
    refine ⟨⟨?_, acyclic_of_rank rank ?_⟩, trivial, trivial, trivial⟩
    · rintro ⟨l, hl, hs, _⟩
      rw [c2, List.mem_map] at hl
      obtain ⟨v, hv, rfl⟩ := hl
      have hs : v.id = g := hs
      exact d2 (hs ▸ List.mem_map_of_mem hv)
    · intro l hl
      have hl : l ∈ K.links ++ [(⟨g, p, 0, 0, 2⟩ : Link)] := hl
      rw [List.mem_append, List.mem_singleton, c2, List.mem_map] at hl
      rcases hl with ⟨v, hv, rfl⟩ | rfl
      · rw [hrv v hv]; simp only; rw [hrg]; omega
      · simp only; rw [hrg, hrp]; omega

theorem plain_all : Plain (made (allCalls voices g p level pans)) (links (allCalls voices g p level pans))
    (input (allCalls voices g p level pans)) := by
  rw [input_all, links_all, made_all]
  constructor
  · simp
  · intro l hl _ _ _ d hd _
    have h1 : l.channels = 2 := by
      rw [List.mem_append, List.mem_map, List.mem_singleton] at hl
      rcases hl with ⟨v, _, rfl⟩ | rfl <;> rfl
    have h2 : d.outputCount = 2 := by
      simp only [List.mem_append, List.mem_map, List.mem_cons, List.not_mem_nil, or_false] at hd
      rcases hd with ⟨v, _, rfl⟩ | rfl | rfl <;> rfl
    omega

theorem requests_own {i : Id} {name : String} :
    (requests (allCalls voices g p level pans)).filter (fun x => x.1 = i ∧ x.2.name = name) =
      (voices.filter (fun v => v.id = i ∧ "gain" = name)).map
          (fun v => (v.id, .change "gain" ⟨v.level, Timestamp.zero, .immediate⟩)) ++
        (if g = i ∧ "gain" = name then [(g, .change "gain" ⟨level, Timestamp.zero, .immediate⟩)] else []) ++
        (if p = i ∧ "pan" = name then pans.map (fun c => (p, .change "pan" c)) else []) := by
  have h1 : requests (voiceCalls voices) =
      voices.map fun v => (v.id, .change "gain" ⟨v.level, Timestamp.zero, .immediate⟩) := by
    induction voices with
    | nil => rfl
    | cons v vs ih =>
      rw [voiceCalls] at ih ⊢
      rw [List.flatMap_cons, requests_append, ih]
      rfl
  have h2 : requests (restCalls g p level pans) =
      (g, .change "gain" ⟨level, Timestamp.zero, .immediate⟩) :: pans.map fun c => (p, .change "pan" c) := by
    have : requests (pans.map fun c => (ApiCall.change (handle (panNode p)) (.change "pan" c) :
        ApiCall FxNode ParameterRequest)) = pans.map fun c => (p, .change "pan" c) := by
      induction pans with
      | nil => rfl
      | cons c cs ih =>
        rw [List.map_cons, List.map_cons, ← ih]
        rfl
    rw [restCalls, requests_append]
    exact congrArg _ this
  have h3 : requests (linkCalls voices g p) = [] := by
    rw [linkCalls, requests_append]
    have : requests (voices.map fun v => (ApiCall.connectTo (handle (oscNode v)) (handle (gainNode g)) :
        ApiCall FxNode ParameterRequest)) = [] := by
      clear h1
      induction voices with
      | nil => rfl
      | cons c cs ih => simpa [requests] using ih
    rw [this]
    rfl
  have h4 : ∀ cs : List (ParameterChange ℝ), (cs.map fun c => (p, ParameterRequest.change "pan" c)).filter
      (fun x => x.1 = i ∧ x.2.name = name) = if p = i ∧ "pan" = name then cs.map (fun c => (p, .change "pan" c)) else [] := by
    intro cs
    split
    · rename_i h
      rw [List.filter_eq_self]
      intro x hx
      obtain ⟨c, _, rfl⟩ := List.mem_map.mp hx
      exact decide_eq_true h
    · rename_i h
      rw [List.filter_eq_nil_iff]
      intro x hx
      obtain ⟨c, _, rfl⟩ := List.mem_map.mp hx
      exact fun h' => h (of_decide_eq_true h')
  rw [allCalls, requests_append, requests_append, h1, h2, h3, List.append_nil, List.filter_append, List.filter_map,
    List.filter_cons, h4, List.append_assoc]
  congr 1
  by_cases h : g = i ∧ "gain" = name
  · simp [ParameterRequest.name, h]
  · simp [ParameterRequest.name, h]

end OfflineExample
end Rawdio
