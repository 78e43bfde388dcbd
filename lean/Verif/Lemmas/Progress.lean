import Verif.Lemmas.NetworkRun
import Verif.Lemmas.Healthy
import Verif.Lemmas.MixedNodes

/-! Helper lemmas: an engine can do what its nodes can do. -/

namespace Rawdio

open Processor DspGraph Chain

variable {S P C : Type}

/-- A node that has come from one of `M`. -/
def Came [Zero S] (ops : NodeOps S P C) (sr : Nat) (M : List (Dsp P)) (h : List (ChainEvent C)) (d : Dsp P) : Prop :=
  ∃ d0 ∈ M, ∃ x y, chainRun ops sr [d0] h x = .ok (y, [d])

/-- The nodes of `M` can do what happens. -/
def Good [Zero S] (ops : NodeOps S P C) (sr : Nat) (M : List (Dsp P)) (h : List (ChainEvent C)) : Prop :=
  ∀ d ∈ M, ∀ x, ∃ r, chainRun ops sr [d] h x = .ok r

section came

variable [Zero S] {ops : NodeOps S P C} {sr : Nat} {M : List (Dsp P)} {h g : List (ChainEvent C)} {d : Dsp P}

theorem good_prefix (H : Good ops sr M (h ++ g)) : Good ops sr M h := by
  intro d hd x
  obtain ⟨r, hr⟩ := H d hd x
  rw [chainRun_append] at hr
  cases h1 : chainRun ops sr [d] h x with
  | error e => rw [h1] at hr; cases hr
  | ok q => exact ⟨q, rfl⟩

theorem chainRun_one : ∀ {es : List (ChainEvent C)} {d : Dsp P} {x y : Nat → Nat → S} {L : List (Dsp P)},
    chainRun ops sr [d] es x = .ok (y, L) → ∃ d', L = [d'] := by
  intro es
  induction es with
  | nil => intro d x y L h; cases h; exact ⟨d, rfl⟩
  | cons e es ih =>
    intro d x y L h
    cases e with
    | change i c =>
      have hc := chainRun_change h
      split at hc
      · obtain ⟨s, _, h2⟩ := hc
        exact ih h2
      · exact ih hc
    | block t n =>
      obtain ⟨u, ds', v, h1, h2, _⟩ := chainRun_block h
      obtain ⟨z, s, _, _, rfl⟩ := chainBlock_single h1
      exact ih h2

theorem followed_before {n f c : Nat} {x y : Nat → Nat → S} (hf : f < n) : followed n x y c f = x c f := by
  simp [followed, hf]

theorem later_followed (n : Nat) (x y : Nat → Nat → S) : later n (followed n x y) = y := by
  funext c f
  simp [later, followed]

theorem came_run (H : Came ops sr M h d) {d' : Dsp P} {x y : Nat → Nat → S}
    (hr : chainRun ops sr [d] g x = .ok (y, [d'])) : Came ops sr M (h ++ g) d' := by
  obtain ⟨d0, hd0, x0, y0, h1⟩ := H
  refine ⟨d0, hd0, followed (ChainEvent.total h) x0 x, followed (ChainEvent.total h) y0 y, ?_⟩
  rw [chainRun_append, chainRun_congr h (by simp) (y := x0) (fun c f hf => followed_before hf), ok_bind h1,
    later_followed, ok_bind hr]
  rfl

theorem came_ok (H : Came ops sr M h d) (G : Good ops sr M (h ++ g)) (x : Nat → Nat → S) :
    ∃ y d', chainRun ops sr [d] g x = .ok (y, [d']) := by
  obtain ⟨d0, hd0, x0, y0, h1⟩ := H
  obtain ⟨r, hr⟩ := G d0 hd0 (followed (ChainEvent.total h) x0 x)
  rw [chainRun_append, chainRun_congr h (by simp) (y := x0) (fun c f hf => followed_before hf), ok_bind h1,
    later_followed] at hr
  cases h2 : chainRun ops sr [d] g x with
  | error e => rw [h2] at hr; cases hr
  | ok q =>
    obtain ⟨y, L⟩ := q
    obtain ⟨d', rfl⟩ := chainRun_one h2
    exact ⟨y, d', rfl⟩

theorem came_change (H : Came ops sr M h d) {c : C} (G : Good ops sr M (h ++ [.change d.id c])) :
    ∃ s, ops.change d.state c = .ok s ∧ Came ops sr M (h ++ [.change d.id c]) { d with state := s } := by
  obtain ⟨y, d', hr⟩ := came_ok H G silence
  have hc := chainRun_change hr
  rw [if_pos rfl] at hc
  obtain ⟨s, h1, h2⟩ := hc
  cases h2
  exact ⟨s, h1, came_run H hr⟩

theorem came_other (H : Came ops sr M h d) {i : Id} {c : C} (hi : d.id ≠ i) :
    Came ops sr M (h ++ [.change i c]) d := by
  refine came_run (x := silence) (y := silence) H ?_
  have := (Network.Turns.other (ops := ops) (c := c) hi).2 sr [] silence
  exact this

theorem came_block (H : Came ops sr M h d) {t : Int} {n : Nat} (G : Good ops sr M (h ++ [.block t n]))
    (x : Nat → Nat → S) :
    ∃ y s, ops.run d.state ⟨n, sr, t, window d.inputCount n x, window d.outputCount n silence⟩ = .ok (y, s) := by
  obtain ⟨y, d', hr⟩ := came_ok H G x
  obtain ⟨u, ds', v, h1, h2, _⟩ := chainRun_block hr
  obtain ⟨z, s, h3, _, _⟩ := chainBlock_single h1
  exact ⟨z, s, h3⟩

theorem came_blocked (H : Came ops sr M h d) {t : Int} {n : Nat} {x y : Nat → Nat → S} {s : P}
    (hr : ops.run d.state ⟨n, sr, t, window d.inputCount n x, window d.outputCount n silence⟩ = .ok (y, s)) :
    Came ops sr M (h ++ [.block t n]) { d with state := s } :=
  came_run H (chainRun_block_of (es := []) (chainBlock_of hr) rfl)

end came

namespace Processor

/-! ## Commands -/

theorem made_fresh (program : List (ApiCall P C)) : ∀ {h : Holding}, (∀ c ∈ program, c.Builds) →
    Allowed Holding.Typed h program → ∀ d ∈ Network.made program, ∀ x ∈ h.nodes, x.id ≠ d.id := by
  induction program with
  | nil => intro h _ _ d hd; cases hd
  | cons c cs ih =>
    intro h hb ht d hd x hx
    have hmade : Network.made (c :: cs) = Network.made [c] ++ Network.made cs := Network.made_append [c] cs
    rw [hmade, List.mem_append] at hd
    rcases hd with hd | hd
    · cases c with
      | create i a b s =>
        have : d = ⟨i, a, b, s⟩ := by simpa [Network.made] using hd
        subst this
        exact ht.1 x hx
      | _ => simp [Network.made] at hd
    · refine ih (fun y hy => hb y (by simp [hy])) ht.2 d hd x ?_
      have hc := hb c (by simp)
      cases c <;> first | exact hc.elim | exact hx | exact List.mem_append_left _ hx

theorem allowed_typed {mc : Nat} (program : List (ApiCall P C)) : ∀ {h : Holding},
    Allowed (fun h c => h.Typed c ∧ h.Careful mc c) h program → Allowed Holding.Typed h program := by
  induction program with
  | nil => intro h _; trivial
  | cons c cs ih => intro h ha; exact ⟨ha.1.1, ih ha.2⟩

/-- What one call of the API does to the nodes. -/
theorem effect_came [Zero S] {ops : NodeOps S P C} {mc sr : Nat} {M : List (Dsp P)} {c : ApiCall P C}
    {program : List (ApiCall P C)} {V W : View P} {h : Holding} {g : List (ChainEvent C)}
    (e1 : Command.Effect ops V c.command W) (hb : ∀ x ∈ c :: program, x.Builds)
    (hn : ∀ i d, V.node i = some d → d.id = i ∧ Came ops sr M g d)
    (hf : ∀ d ∈ Network.made (c :: program), Came ops sr M g d)
    (hp : Allowed (fun h c => h.Typed c ∧ h.Careful mc c) h (c :: program))
    (hg1 : Good ops sr M (g ++ (Network.requests [c]).map fun x => .change x.1 x.2)) :
    (∀ i d, W.node i = some d → d.id = i ∧
      Came ops sr M (g ++ (Network.requests [c]).map fun x => .change x.1 x.2) d) ∧
    ∀ d ∈ Network.made program, Came ops sr M (g ++ (Network.requests [c]).map fun x => .change x.1 x.2) d := by
  have hmade : Network.made (c :: program) = Network.made [c] ++ Network.made program := Network.made_append [c] program
  have hbc := hb c (by simp)
  have hfresh := made_fresh program (h := h.after c) (fun x hx => hb x (by simp [hx])) (allowed_typed _ hp.2)
  constructor
  · have hsame : Network.requests [c] = [] →
        (g ++ (Network.requests [c]).map fun x => (.change x.1 x.2 : ChainEvent C)) = g := by
      intro h; simp [h]
    generalize hkk : c.command = kk at e1
    cases e1 with
    | start => cases c <;> simp only [ApiCall.command, reduceCtorEq] at hkk; rw [hsame rfl]; exact hn
    | stop => cases c <;> simp only [ApiCall.command, reduceCtorEq] at hkk; exact hbc.elim
    | addDsp d q _ =>
      intro i e he
      cases c <;> simp only [ApiCall.command, Command.addDsp.injEq, reduceCtorEq] at hkk
      subst hkk
      rw [hsame rfl]
      simp only at he
      split at he
      · cases he
        exact ⟨by simp_all, hf _ (by rw [hmade]; simp [Network.made])⟩
      · exact hn i e he
    | removeDsp j q _ =>
      cases c <;> simp only [ApiCall.command, reduceCtorEq] at hkk
      exact hbc.elim
    | change j r d s k1 k2 =>
      intro i e he
      cases c <;> simp only [ApiCall.command, Command.change.injEq, reduceCtorEq] at hkk
      obtain ⟨rfl, rfl⟩ := hkk
      rw [show Network.requests [ApiCall.change _ _] = [_] from rfl, List.map_singleton] at hg1 ⊢
      dsimp only at hg1 ⊢
      obtain ⟨k3, k4⟩ := hn _ d k1
      simp only at he
      split at he
      · cases he
        rename_i hi
        rw [← k3] at hg1 ⊢
        obtain ⟨s', k5, k6⟩ := came_change k4 hg1
        rw [k2] at k5
        cases k5
        exact ⟨by simp_all, k6⟩
      · rename_i hi
        obtain ⟨k5, k6⟩ := hn i e he
        exact ⟨k5, came_other k6 (by rw [k5]; exact hi)⟩
    | changeAbsent j r hj =>
      intro i e he
      cases c <;> simp only [ApiCall.command, Command.change.injEq, reduceCtorEq] at hkk
      obtain ⟨rfl, rfl⟩ := hkk
      rw [show Network.requests [ApiCall.change _ _] = [_] from rfl, List.map_singleton]
      obtain ⟨k5, k6⟩ := hn i e he
      refine ⟨k5, came_other k6 ?_⟩
      rw [k5]
      rintro rfl
      rw [hj] at he
      cases he
    | addConnection k i q _ _ =>
      cases c <;> simp only [ApiCall.command, reduceCtorEq] at hkk <;> (rw [hsame rfl]; exact hn)
    | removeConnection k q _ =>
      cases c <;> simp only [ApiCall.command, reduceCtorEq] at hkk <;> exact hbc.elim
    | connectToOutput ep => cases c <;> simp only [ApiCall.command, reduceCtorEq] at hkk; rw [hsame rfl]; exact hn
    | connectToInput ep => cases c <;> simp only [ApiCall.command, reduceCtorEq] at hkk; rw [hsame rfl]; exact hn
  · intro d hd
    have h0 := hf d (by rw [hmade]; exact List.mem_append_right _ hd)
    cases c with
    | change i r =>
      rw [show Network.requests [ApiCall.change i r] = [(i.id, r)] from rfl, List.map_singleton]
      refine came_other h0 ?_
      obtain ⟨x, hx, hx1, _⟩ := hp.1.1
      rw [← hx1]
      exact (hfresh d hd x hx).symm
    | _ => simpa [Network.requests] using h0

theorem effects_came [Zero S] {ops : NodeOps S P C} {mc sr : Nat} {M : List (Dsp P)} :
    ∀ (program : List (ApiCall P C)) {V W : View P} {h : Holding} {g : List (ChainEvent C)},
    Command.Effects ops V (program.map ApiCall.command) W → (∀ x ∈ program, x.Builds) →
    (∀ i d, V.node i = some d → d.id = i ∧ Came ops sr M g d) →
    (∀ d ∈ Network.made program, Came ops sr M g d) →
    Allowed (fun h c => h.Typed c ∧ h.Careful mc c) h program →
    Good ops sr M (g ++ (Network.requests program).map fun x => .change x.1 x.2) →
    ∀ i d, W.node i = some d → d.id = i ∧
      Came ops sr M (g ++ (Network.requests program).map fun x => .change x.1 x.2) d := by
  intro program
  induction program with
  | nil =>
    intro V W h g e _ hn _ _ _
    cases e
    simpa [Network.requests] using hn
  | cons c program ih =>
    intro V W h g e hb hn hf hp hg
    have hreq : Network.requests (c :: program) = Network.requests [c] ++ Network.requests program :=
      Network.requests_append [c] program
    rw [hreq, List.map_append, ← List.append_assoc] at hg ⊢
    cases e with
    | cons e1 e2 =>
      obtain ⟨h1, h2⟩ := effect_came e1 hb hn hf hp (good_prefix hg)
      exact ih e2 (fun x hx => hb x (by simp [hx])) h1 h2 hp.2 hg

theorem effects_nodes {ops : NodeOps S P C} {V W : View P} {cs : List (Command P C)} (h : Command.Effects ops V cs W) :
    (∀ i, i ∈ V.patch.nodes ↔ ∃ d, V.node i = some d) → ∀ i, i ∈ W.patch.nodes ↔ ∃ d, W.node i = some d := by
  induction h with
  | nil V => exact id
  | @cons V W X c cs h1 _ ih =>
    intro hV
    apply ih
    cases h1 with
    | start => exact hV
    | stop => exact hV
    | addDsp d q hq =>
      cases hq with
      | addNode _ _ hni =>
        intro i
        simp only [List.mem_append, List.mem_singleton]
        by_cases hi : i = d.id
        · simp [hi]
        · simp [hi, hV i]
    | removeDsp j q hq =>
      cases hq with
      | removeNode _ hni =>
        intro i
        simp only [List.mem_filter]
        by_cases hi : i = j
        · simp [hi]
        · simp [hi, hV i]
    | change j r d s k1 k2 =>
      intro i
      by_cases hi : i = j
      · subst hi
        simp [hV i, k1]
      · simp [hi, hV i]
    | changeAbsent j r hj => exact hV
    | addConnection k i q _ hq => cases hq; exact hV
    | removeConnection k q hq => cases hq <;> exact hV
    | connectToOutput ep => exact hV
    | connectToInput ep => exact hV

theorem commands_progress [AddZeroClass S] {ops : NodeOps S P C} {mf mc sr : Nat} (hm : 0 < mf) {M : List (Dsp P)} :
    ∀ (program : List (ApiCall P C)) (cs : List (Command P C × Luck))
    (E : Processor S P) (V : View P) (h : Holding) (g : List (ChainEvent C)),
    cs.map Prod.fst = program.map ApiCall.command →
    EInv ops mf mc sr E → Looks E mf mc sr V → Agrees mc h V → (∀ c ∈ program, c.Builds) →
    (∀ i d, V.node i = some d → d.id = i ∧ Came ops sr M g d) →
    (∀ d ∈ Network.made program, Came ops sr M g d) →
    Allowed (fun h c => h.Typed c ∧ h.Careful mc c) h program →
    Good ops sr M (g ++ (Network.requests program).map fun x => .change x.1 x.2) →
    ∃ E' W, E.processCommands ops cs = .ok E' ∧ Command.Effects ops V (program.map ApiCall.command) W ∧
      Looks E' mf mc sr W ∧ EInv ops mf mc sr E' := by
  intro program
  induction program with
  | nil =>
    intro cs E V h g hcs hE hV _ _ hn _ _ _
    have : cs = [] := by simpa using hcs
    subst this
    exact ⟨E, V, rfl, .nil V, hV, hE⟩
  | cons c program ih =>
    intro cs E V h g hcs hE hV a hb hn hf hp hg
    cases cs with
    | nil => simp at hcs
    | cons k cs =>
      simp only [List.map_cons, List.cons.injEq] at hcs
      obtain ⟨hk, hcs⟩ := hcs
      obtain ⟨k, luck⟩ := k
      simp only at hk
      subst hk
      have hreq : Network.requests (c :: program) = Network.requests [c] ++ Network.requests program :=
        Network.requests_append [c] program
      rw [hreq, List.map_append, ← List.append_assoc] at hg
      have hg1 := good_prefix hg
      have hbc := hb c (by simp)
      have hch : ∀ i r, c.command = .change i r → ∀ d, V.node i = some d → ∃ s, ops.change d.state r = .ok s := by
        intro i r hc d hd
        cases c <;> simp only [ApiCall.command, Command.change.injEq, reduceCtorEq] at hc
        obtain ⟨rfl, rfl⟩ := hc
        obtain ⟨h1, h2⟩ := hn _ d hd
        rw [show Network.requests [ApiCall.change _ _] = [_] from rfl, List.map_singleton] at hg1
        dsimp only at hg1
        rw [← h1] at hg1
        obtain ⟨s, hs, _⟩ := came_change h2 hg1
        exact ⟨s, hs⟩
      rcases apply_cases hE hV c.command luck hch with ⟨r, _, _⟩ | ⟨_, ⟨r, hw⟩, _⟩ | ⟨_, _, E1, h1⟩
      · exact absurd r (not_refused a hp.1.1 hp.1.2)
      · exfalso
        cases c <;> first | exact r.elim | exact hbc.elim
      · obtain ⟨W, e1, e2⟩ := apply_looks hE hV (command_api c) h1
        obtain ⟨hn1, hf1⟩ := effect_came e1 hb hn hf hp hg1
        obtain ⟨E', W', h2, e3, e4, e5⟩ := ih cs E1 W (h.after c) _ hcs (apply_inv hm hE (command_api c) h1) e2
          (effect_agrees a hp.1.1 hp.1.2 e1) (fun x hx => hb x (by simp [hx])) hn1 hf1 hp.2 hg
        exact ⟨E', W', (ok_bind h1).trans h2, .cons e1 e3, e4, e5⟩

/-! ## A call -/

theorem loop_progress {γ : Type} {I : Nat → γ → Prop} {run : Nat → γ → Buf S → Buf S → Int → Res (Buf S × γ)}
    {mf sr total : Nat} {now : Int}
    (hrun : ∀ offset g input p r t o' g', I offset g → offset < total → r.frameCount = min (total - offset) mf →
      t = Timestamp.incrementedBySamples now offset sr → ValidBlock input (.slice p r true) →
      run offset g input (.slice p r true) t = .ok (o', g') →
      I (offset + min (total - offset) mf) g' ∧ ∃ p', o' = .slice p' r true ∧ p.SameShape p' ∧ p'.WF ∧ p'.Writable)
    (hok : ∀ offset g input p r t, I offset g → offset < total → r.frameCount = min (total - offset) mf →
      t = Timestamp.incrementedBySamples now offset sr → ValidBlock input (.slice p r true) →
      ∃ x, run offset g input (.slice p r true) t = .ok x)
    (hmf : 0 < mf) {input : Buf S} (hi : input.WF) :
    ∀ (fuel offset : Nat) (g : γ) (output : Buf S), output.frameCount = total →
    I offset g → output.WF → output.Writable → output.frameCount ≤ input.frameCount →
    offset ≤ output.frameCount → output.frameCount < offset + fuel →
    ∃ r, processLoop run mf sr now input fuel offset g output = .ok r := by
  intro fuel
  induction fuel with
  | zero =>
    intro offset g output _ _ _ _ _ h1 h2
    omega
  | succ fuel ih =>
    intro offset g output ht hI hw hm he hoff hfuel
    subst ht
    by_cases hlt : offset < output.frameCount
    · rw [processLoop_step he hlt]
      have hvb := validBlock_slice (mf := mf) hi hw hm he hlt hmf
      obtain ⟨⟨o1, g1⟩, h1⟩ := hok offset g _ _ _ _ hI hlt rfl rfl hvb
      obtain ⟨hI1, p', rfl, hsh, hw', hm'⟩ := hrun _ _ _ _ _ _ _ _ hI hlt rfl rfl hvb h1
      have hfc := hsh.frameCount
      rw [ok_bind h1]
      exact ih _ g1 p' hfc.symm hI1 hw' hm' (by rw [← hfc]; exact he) (by omega) (by omega)
    · exact ⟨_, processLoop_done hlt⟩

/-- The blocks of a call. -/
def blocksAt (C : Type) (now : Int) (sr : Nat) (tiles : List (Nat × Nat)) : List (ChainEvent C) :=
  tiles.map fun b => .block (Timestamp.incrementedBySamples now b.1 sr) b.2

theorem render_progress [Zero S] [Add S] {ops : NodeOps S P C} {mf mc sr : Nat} (hm : 0 < mf) {M : List (Dsp P)}
    {g : List (ChainEvent C)} {E E0 : Processor S P} {k : Call S P C}
    (hk : k.Valid) (hf : E0.maxFrames = mf) (hsr : E0.sampleRate = sr) (h : E.processCommands ops k.commands = .ok E0)
    (hG : E0.started = true → Ready ops mf mc sr E0.graph ∧ (∀ i d, E0.graph.graph.getNode i = some d → Came ops sr M g d) ∧
      ∃ tiles, Tiles mf 0 k.output.frameCount tiles ∧ Good ops sr M (g ++ blocksAt C E0.currentTime sr tiles)) :
    ∃ r, E.process ops k.env k.commands k.input k.output = .ok r := by
  obtain ⟨o0, e1, e2, e3, e4, e5⟩ := Buf.C36_clear k.output hk.outWF hk.writable
  have key : ∃ r, E0.render ops k.env k.input o0 = .ok r := by
    unfold render
    cases hs : E0.started with
    | false => exact ⟨_, if_neg (by simp)⟩
    | true =>
      obtain ⟨hR, hC, tiles, ht, hgood⟩ := hG hs
      have hleft : ∀ offset left, offset < k.output.frameCount → Tiles mf offset k.output.frameCount left →
          ∃ left', left = (offset, min (k.output.frameCount - offset) mf) :: left' ∧
            Tiles mf (offset + min (k.output.frameCount - offset) mf) k.output.frameCount left' := by
        intro offset left hlt hl
        cases left with
        | nil => have : offset = k.output.frameCount := hl; omega
        | cons b left =>
          obtain ⟨o, n⟩ := b
          obtain ⟨rfl, b2, b3, b4, b5⟩ := hl
          have := tiles_le _ _ _ b5
          obtain rfl : n = min (k.output.frameCount - o) mf := by omega
          exact ⟨left, rfl, b5⟩
      obtain ⟨r, hr⟩ := loop_progress (sr := E0.sampleRate) (mf := mf) (total := k.output.frameCount) (now := E0.currentTime)
        (I := fun offset G => Ready ops mf mc sr G ∧ ∃ done left, tiles = done ++ left ∧
          Tiles mf offset k.output.frameCount left ∧
          ∀ i d, G.graph.getNode i = some d → Came ops sr M (g ++ blocksAt C E0.currentTime sr done) d)
        (run := runGraph ops k.env)
        (by
          intro offset G input p r t o' G' hG hlt hrf htime hv h
          obtain ⟨h1, p', h2, h3, h4, h5, _⟩ := ready_writesSlice ops k.env hm offset G input p r t o' G' hG.1 hv h
          refine ⟨⟨h1, ?_⟩, p', h2, h3, h4, h5⟩
          obtain ⟨⟨_, q, hq, _⟩, done, left, hd1, hd2, hI⟩ := hG
          obtain ⟨left', rfl, hl2⟩ := hleft offset left hlt hd2
          obtain ⟨sig, hd, _⟩ := process_writesSlice (D := ⟨mc, mf, sr⟩) hm hq hv h
          refine ⟨done ++ [(offset, min (k.output.frameCount - offset) mf)], left', by simp [hd1], hl2, ?_⟩
          intro i d hid
          have hi : i ∈ q.nodes := (hd.inv.rep.shows.nodes i).mpr ⟨d, hid⟩
          obtain ⟨d', y, st, r1, r2, r3, _⟩ := hd.ran i hi
          rw [hid] at r3
          injection r3 with r3
          rw [r3]
          have := came_blocked (hI i d' r1) r2
          have hfr : min (Buf.slice p r true).frameCount mf = min (k.output.frameCount - offset) mf := by
            change min r.frameCount mf = _
            omega
          rw [show (Dims.mk mc mf sr).fr = mf from rfl] at this
          rw [hfr, htime, hsr] at this
          simpa [blocksAt] using this)
        (by
          intro offset G input p r t hG hlt hrf htime hv
          obtain ⟨⟨_, q, hq, hac, hnp, hfit, hsize⟩, done, left, hd1, hd2, hI⟩ := hG
          obtain ⟨left', rfl, hl2⟩ := hleft offset left hlt hd2
          refine process_progress hq hv.inWF hv.outWF hv.writable hv.nonempty hm hv.enough hac hnp ?_ ?_
          · change q.nodes.length + 2 ≤ 1024
            omega
          · intro i hi
            refine ⟨?_, inputFits_of_fits hfit i⟩
            intro d hd
            refine ⟨(hfit.1 i d hd).2, (hfit.1 i d hd).1, fun x => ?_⟩
            have hfr : min (Buf.slice p r true).frameCount mf = min (k.output.frameCount - offset) mf := by
              change min r.frameCount mf = _
              omega
            dsimp only
            rw [hfr, htime, hsr]
            have hgood' : Good ops sr M ((g ++ blocksAt C E0.currentTime sr done) ++
                [.block (Timestamp.incrementedBySamples E0.currentTime offset sr) (min (k.output.frameCount - offset) mf)]) := by
              refine good_prefix (g := blocksAt C E0.currentTime sr left') ?_
              rw [hd1] at hgood
              simpa [blocksAt] using hgood
            obtain ⟨y, s, hys⟩ := came_block (hI i d hd) hgood' x
            exact ⟨_, hys⟩)
        hm hk.inWF (o0.frameCount + 1) 0 E0.graph o0 e2.frameCount.symm ⟨hR, [], tiles, rfl, ht, by simpa [blocksAt] using hC⟩
        e3 e4 (by rw [← e2.frameCount]; exact hk.enough) (Nat.zero_le _) (by omega)
      rw [← hf] at hr
      exact ⟨_, (if_pos rfl).trans (ok_bind hr)⟩
  obtain ⟨r, hr⟩ := key
  exact ⟨r, (ok_bind e1).trans ((ok_bind h).trans hr)⟩

theorem exists_tiles {full : Nat} (hf : 0 < full) : ∀ (n a b : Nat), b - a ≤ n → a ≤ b → ∃ tiles, Tiles full a b tiles := by
  intro n
  induction n with
  | zero => intro a b h1 h2; exact ⟨[], by show a = b; omega⟩
  | succ n ih =>
    intro a b h1 h2
    by_cases h : a = b
    · exact ⟨[], h⟩
    · obtain ⟨tiles, ht⟩ := ih (a + min (b - a) full) b (by omega) (by omega)
      exact ⟨(a, min (b - a) full) :: tiles, rfl, by omega, by omega, by omega, ht⟩

theorem exists_blocks {full : Nat} (hf : 0 < full) (sr first total : Nat) : ∃ bs, BlocksOf full sr first total bs := by
  obtain ⟨tiles, ht⟩ := exists_tiles hf total 0 total (by omega) (by omega)
  exact ⟨_, _, tiles, fromSamples_nearest first sr, ht, rfl⟩

theorem call_progress [AddZeroClass S] {ops : NodeOps S P C} {mf mc sr : Nat} (hm : 0 < mf) {M : List (Dsp P)}
    {program : List (ApiCall P C)} {k : Call S P C} {E : Processor S P} {V : View P} {h : Holding} {g : List (ChainEvent C)}
    (hk : k.Valid) (hcs : k.commands.map Prod.fst = program.map ApiCall.command)
    (hE : EInv ops mf mc sr E) (hV : Looks E mf mc sr V) (a : Agrees mc h V) (hb : ∀ c ∈ program, c.Builds)
    (hn : ∀ i d, V.node i = some d → d.id = i ∧ Came ops sr M g d)
    (hf : ∀ d ∈ Network.made program, Came ops sr M g d)
    (hp : Allowed (fun h c => h.Typed c ∧ h.Careful mc c) h program)
    (hg : Good ops sr M (g ++ (Network.requests program).map fun x => .change x.1 x.2))
    (hr : ∀ W, Command.Effects ops V (program.map ApiCall.command) W → W.running = true →
      ∀ bs, BlocksOf mf sr W.frames k.output.frameCount bs →
        Good ops sr M (g ++ (Network.requests program).map (fun x => .change x.1 x.2) ++ bs.map fun b => .block b.1 b.2)) :
    ∃ o E1 X W, E.process ops k.env k.commands k.input k.output = .ok (o, E1) ∧ Looks E1 mf mc sr X ∧
      EInv ops mf mc sr E1 ∧ Agrees mc (h.afterAll program) X ∧ Command.Effects ops V (program.map ApiCall.command) W ∧
      ((X = W ∧ W.running = false ∧ ∀ i d, X.node i = some d → d.id = i ∧
          Came ops sr M (g ++ (Network.requests program).map fun x => .change x.1 x.2) d) ∨
       (W.running = true ∧ X.running = true ∧ X.frames = W.frames + k.output.frameCount ∧
        ∃ bs, BlocksOf mf sr W.frames k.output.frameCount bs ∧ ∀ i d, X.node i = some d → d.id = i ∧
          Came ops sr M (g ++ (Network.requests program).map (fun x => .change x.1 x.2) ++ bs.map fun b => .block b.1 b.2) d)) := by
  obtain ⟨E0, W, h0, w1, w2, w3⟩ := commands_progress hm program k.commands E V h g hcs hE hV a hb hn hf hp hg
  have hW := effects_came program w1 hb hn hf hp hg
  have aW := effects_agrees program a hp w1
  obtain ⟨⟨o, E1⟩, hpr⟩ := render_progress (mc := mc) (sr := sr) (M := M)
      (g := g ++ (Network.requests program).map fun x => .change x.1 x.2) hm hk w3.frames w3.rate h0 (by
    intro hs
    refine ⟨?_, fun i d hd => (hW i d (by rw [← w2.node]; exact hd)).2, ?_⟩
    · refine ⟨w3.reach, _, w2.inv, aW.acyclicPatch, aW.noParallel, ⟨?_, ?_⟩, ?_⟩
      · intro i d hd
        rw [w2.node] at hd
        obtain ⟨x, hx, _, e1, e2⟩ := aW.counts i d hd
        rw [← e1, ← e2]
        exact aW.fits x hx
      · intro c hc
        have hm : c.link ∈ (h.afterAll program).links := by rw [← aW.links]; exact List.mem_map_of_mem hc
        exact aW.narrow _ hm
      · rw [aW.nodes, List.length_map]
        exact aW.small
    · obtain ⟨tiles, ht⟩ := exists_tiles hm k.output.frameCount 0 k.output.frameCount (by omega) (by omega)
      refine ⟨tiles, ht, ?_⟩
      have := hr W w1 (by rw [← w2.running]; exact hs) _ ⟨_, tiles, fromSamples_nearest _ sr, ht, rfl⟩
      rw [w2.time, w2.frames]
      simpa [blocksAt, List.map_map, Function.comp_def] using this)
  obtain ⟨X, x1, x2, x3, _⟩ := process_looks hm hE hV hk hpr
  cases x1 with
  | stopped _ _ _ e1 e2 _ =>
    rw [hcs] at e1
    exact ⟨o, E1, X, X, hpr, x2, x3, effects_agrees program a hp e1, e1, .inl ⟨rfl, e2, effects_came program e1 hb hn hf hp hg⟩⟩
  | running W' _ now node _ e1 e2 e3 e4 =>
    rw [hcs] at e1
    have b := effects_agrees program a hp e1
    have hW' := effects_came program e1 hb hn hf hp hg
    have hnodes : ∀ i, i ∈ W'.patch.nodes ↔ ∃ d, W'.node i = some d := by
      refine effects_nodes e1 fun i => ?_
      rw [hV.inv.rep.shows.nodes i, hV.node]
    obtain ⟨tiles, Y, t1, t2, t3, _⟩ := Network.network_call hm e4 (Nat.zero_le _) fun n hn => (hnodes n).mp hn
    refine ⟨o, E1, _, W', hpr, x2, x3, ?_, e1, .inr ⟨e2, e2, rfl, _, ⟨now, tiles, e3, t1, rfl⟩, ?_⟩⟩
    · refine ⟨b.nodes, b.links, ?_, b.unique, b.small, b.fits, b.narrow, b.single, b.acyclic⟩
      intro i d hd
      obtain ⟨d', e5, e6, e7⟩ := rendered_counts e4 i d hd
      obtain ⟨x, hx, f1, f2, f3⟩ := b.counts i d' e5
      exact ⟨x, hx, f1, f2.trans e7, f3.trans e6⟩
    · intro i d hd
      by_cases hi : i ∈ W'.patch.nodes
      · obtain ⟨d1, d2, n1, n2, n3, n4, _⟩ := t2 i hi
        have hd' : node i = some d := hd
        rw [n2] at hd'
        cases hd'
        obtain ⟨f1, f2⟩ := hW' i d1 n1
        refine ⟨(show d.id = d1.id from congrArg Prod.fst n3).trans f1, ?_⟩
        rw [List.map_map]
        exact came_run f2 n4
      · have h1 : W'.node i = none := by
          cases hw : W'.node i with
          | none => rfl
          | some e =>
            exfalso
            exact hi ((hnodes i).mpr ⟨e, hw⟩)
        have hd' : node i = some d := hd
        rw [t3 i hi h1] at hd'
        cases hd'

/-! ## A session -/

/-- Requests, as the nodes see them. -/
abbrev changesOf (cs : List (Id × C)) : List (ChainEvent C) := cs.map fun x => .change x.1 x.2

theorem came_fresh [Zero S] {ops : NodeOps S P C} {sr : Nat} {M : List (Dsp P)} {p q : List (ApiCall P C)}
    (hb : ∀ c ∈ p ++ q, c.Builds) (ht : Allowed Holding.Typed Holding.empty (p ++ q))
    (hM : ∀ d ∈ Network.made q, d ∈ M) :
    ∀ d ∈ Network.made q, Came ops sr M (changesOf (Network.requests p)) d := by
  intro d hd
  rw [allowed_append] at ht
  have h1 := Network.requests_held p (fun c hc => hb c (by simp [hc])) ht.1
  have h2 := made_fresh q (fun c hc => hb c (by simp [hc])) ht.2 d hd
  rw [Network.holding_of_builds p fun c hc => hb c (by simp [hc])] at h2
  have h3 : ∀ x ∈ Network.requests p, x.1 ≠ d.id := by
    intro x hx
    obtain ⟨e, he, he2⟩ := List.mem_map.mp (h1 x hx)
    rw [← he2]
    exact h2 _ (List.mem_map_of_mem (f := fun d : Dsp P => (⟨d.id, d.inputCount, d.outputCount⟩ : Held)) he)
  refine ⟨d, hM d hd, silence, silence, ?_⟩
  have := (Network.Turns.none (ops := ops) _ h3).2 sr [] silence
  rw [List.append_nil] at this
  exact this

theorem waiting_progress [AddZeroClass S] {ops : NodeOps S P C} {mf mc sr : Nat} (hm : 0 < mf) {M : List (Dsp P)}
    (waiting : List (Call S P C)) : ∀ (p rest : List (ApiCall P C)), (∀ k ∈ waiting, k.Valid) →
    history waiting = p.map ApiCall.command → .start ∉ history waiting → (∀ c ∈ p ++ rest, c.Builds) →
    Allowed (fun h c => h.Typed c ∧ h.Careful mc c) Holding.empty (p ++ rest) →
    (∀ d ∈ Network.made (p ++ rest), d ∈ M) →
    Good ops sr M (changesOf (Network.requests (p ++ rest))) →
    ∃ E V, calls ops (new sr mc mf) waiting = .ok E ∧ Looks E mf mc sr V ∧ EInv ops mf mc sr E ∧
      Agrees mc (Holding.empty.afterAll p) V ∧ Command.Effects ops View.empty (p.map ApiCall.command) V ∧
      V.running = false ∧ ∀ i d, V.node i = some d → d.id = i ∧ Came ops sr M (changesOf (Network.requests p)) d := by
  induction waiting using List.reverseRecOn with
  | nil =>
    intro p rest _ hh _ _ _ _ _
    have : p = [] := by simpa [history] using hh.symm
    subst this
    exact ⟨_, _, rfl, looks_new .., einv_new .., agrees_empty mc, .nil _, rfl, by intro i d h; cases h⟩
  | append_singleton ks k ih =>
    intro p rest hk hh hs hb hp hM hg
    have hks : history (ks ++ [k]) = history ks ++ k.commands.map Prod.fst := by simp [history]
    rw [hks] at hh hs
    obtain ⟨q, as, rfl, h1, h2⟩ := List.append_eq_map_iff.mp hh
    rw [List.append_assoc] at hb hp hM hg
    obtain ⟨E, V, e1, e2, e3, e4, e5, e6, e7⟩ := ih q (as ++ rest) (fun l hl => hk l (by simp [hl])) h1.symm
      (fun h => hs (by simp [h])) hb hp hM hg
    have hp' : Allowed (fun h c => h.Typed c ∧ h.Careful mc c) Holding.empty ((q ++ as) ++ rest) := by
      rw [List.append_assoc]; exact hp
    have hpq := ((allowed_append _ _ _).mp hp').1
    have hns : ∀ c ∈ as.map ApiCall.command, c ≠ .start := by
      rintro c hc rfl
      rw [h2] at hc
      exact hs (by simp [hc])
    obtain ⟨o, E1, X, W, f1, f2, f3, f4, f5, f6⟩ := call_progress (program := as) (g := changesOf (Network.requests q))
      hm (hk k (by simp)) h2.symm e3 e2 e4 (fun c hc => hb c (by simp [hc])) e7
      (came_fresh (fun c hc => hb c (by simp only [List.mem_append] at hc ⊢; tauto)) (allowed_typed _ hpq)
        (fun d hd => hM d (by rw [Network.made_append, Network.made_append]; simp [hd])))
      ((allowed_append _ _ _).mp hpq).2
      (by
        refine good_prefix (g := changesOf (Network.requests rest)) ?_
        rw [Network.requests_append, Network.requests_append, changesOf, List.map_append, List.map_append,
          ← List.append_assoc] at hg
        exact hg)
      (by
        intro W hW hr
        rw [Network.effects_waiting hW hns e6] at hr
        cases hr)
    have hw := Network.effects_waiting f5 hns e6
    rcases f6 with ⟨rfl, _, f7⟩ | ⟨f7, _⟩
    · refine ⟨E1, X, ?_, f2, f3, ?_, ?_, hw, ?_⟩
      · exact (calls_append _ _ _ _).mpr ⟨E, e1, (ok_bind f1).trans rfl⟩
      · have : Holding.empty.afterAll (q ++ as) = (Holding.empty.afterAll q).afterAll as := List.foldl_append
        rw [this]; exact f4
      · rw [List.map_append]; exact Network.effects_join e5 f5
      · rw [Network.requests_append, changesOf, List.map_append]; exact f7
    · rw [hw] at f7; cases f7

theorem requests_still {ops : NodeOps S P C} (as : List (ApiCall P C)) : ∀ {V W : View P}, (∀ c ∈ as, c.Requests) →
    Command.Effects ops V (as.map ApiCall.command) W → W.running = V.running ∧ W.frames = V.frames := by
  induction as with
  | nil => intro V W _ h; cases h; exact ⟨rfl, rfl⟩
  | cons a as ih =>
    intro V W hr h
    cases h with
    | cons h1 h2 =>
      have ha := hr a (by simp)
      obtain ⟨i1, i2⟩ := ih (fun c hc => hr c (by simp [hc])) h2
      cases a <;> try exact ha.elim
      cases h1 <;> exact ⟨i1, i2⟩

theorem made_requests (as : List (ApiCall P C)) (h : ∀ c ∈ as, c.Requests) : Network.made as = [] := by
  rw [Network.made, List.filterMap_eq_nil_iff]
  intro c hc
  have := h c hc
  cases c <;> first | rfl | exact this.elim

theorem session_progress [AddZeroClass S] {ops : NodeOps S P C} {mf mc sr : Nat} (hm : 0 < mf)
    {program : Nat → List (ApiCall P C)} (hP : Network.Program program)
    (hc : ∀ n, Allowed (fun h c => h.Typed c ∧ h.Careful mc c) Holding.empty ((List.range n).flatMap program))
    (waiting : List (Call S P C)) (k0 : Call S P C) (ks : List (Call S P C)) :
    (∀ k ∈ waiting ++ k0 :: ks, k.Valid) → Network.Delivered program waiting (k0 :: ks) →
    (∀ es, ChainHistory mf sr (fun i => Network.requests (program i)) (k0 :: ks) es →
      Good ops sr (Network.made (program 0)) es) →
    ∃ E V es, calls ops (new sr mc mf) (waiting ++ k0 :: ks) = .ok E ∧ Looks E mf mc sr V ∧ EInv ops mf mc sr E ∧
      Agrees mc (Holding.empty.afterAll ((List.range (ks.length + 1)).flatMap program)) V ∧ V.running = true ∧
      V.frames = framesIn (k0 :: ks) ∧ ChainHistory mf sr (fun i => Network.requests (program i)) (k0 :: ks) es ∧
      ∀ i d, V.node i = some d → d.id = i ∧ Came ops sr (Network.made (program 0)) es d := by
  induction ks using List.reverseRecOn with
  | nil =>
    intro hk hd hg
    obtain ⟨rest', hpart⟩ := hd.part
    obtain ⟨before, rest, hbr, hbe, _⟩ := List.append_eq_map_iff.mp hpart
    have hfirst := hd.first k0 rfl
    have hrest : k0.commands.map Prod.fst = rest.map ApiCall.command := by
      rw [hbr, List.map_append, ← hbe] at hfirst
      exact List.append_cancel_left hfirst
    have hp0 : Allowed (fun h c => h.Typed c ∧ h.Careful mc c) Holding.empty (before ++ rest) := by
      have := hc 1
      rw [← hbr]
      simpa using this
    have hgood : ∀ bs, BlocksOf mf sr 0 k0.output.frameCount bs → Good ops sr (Network.made (program 0))
        (changesOf (Network.requests (program 0)) ++ bs.map fun b => .block b.1 b.2) := by
      intro bs hbs
      have := hg _ (.snoc k0 bs .nil hbs)
      simpa using this
    have hb : ∀ c ∈ before ++ rest, c.Builds := by rw [← hbr]; exact hP.builds
    obtain ⟨E, V, e1, e2, e3, e4, e5, e6, e7⟩ := waiting_progress (M := Network.made (program 0)) hm waiting before rest
      (fun k h => hk k (by simp [h])) hbe.symm hd.notStarted hb hp0 (by rw [← hbr]; exact fun _ h => h)
      (by
        obtain ⟨bs, hbs⟩ := exists_blocks hm sr 0 k0.output.frameCount
        rw [← hbr]
        exact good_prefix (hgood bs hbs))
    have hreq : changesOf (Network.requests before) ++ (Network.requests rest).map (fun x => (.change x.1 x.2 : ChainEvent C)) =
        changesOf (Network.requests (program 0)) := by
      rw [hbr, Network.requests_append, changesOf, changesOf, List.map_append]
    have hW0 : ∀ W, Command.Effects ops V (rest.map ApiCall.command) W → W.running = true ∧ W.frames = 0 := by
      intro W hW
      have := Network.effects_join e5 hW
      rw [← List.map_append, ← hbr] at this
      have hbuilt := Network.effects_built (program 0) hP.builds hP.typed this
      exact ⟨hbuilt.running.mpr hP.starts, hbuilt.frames⟩
    obtain ⟨o, E1, X, W, f1, f2, f3, f4, f5, f6⟩ := call_progress (program := rest) (g := changesOf (Network.requests before))
      hm (hk k0 (by simp)) hrest e3 e2 e4 (fun c hc => hb c (by simp [hc])) e7
      (came_fresh hb (allowed_typed _ hp0)
        (fun d hd => by rw [hbr, Network.made_append]; simp [hd]))
      ((allowed_append _ _ _).mp hp0).2
      (by
        rw [hreq]
        obtain ⟨bs, hbs⟩ := exists_blocks hm sr 0 k0.output.frameCount
        exact good_prefix (hgood bs hbs))
      (by
        intro W hW _ bs hbs
        rw [hreq]
        rw [(hW0 W hW).2] at hbs
        exact hgood bs hbs)
    obtain ⟨w1, w2⟩ := hW0 W f5
    rcases f6 with ⟨_, f6, _⟩ | ⟨_, f7, f8, bs, f9, f10⟩
    · rw [w1] at f6; cases f6
    · rw [w2] at f8 f9
      refine ⟨E1, X, _, (calls_append _ _ _ _).mpr ⟨E, e1, (ok_bind f1).trans rfl⟩, f2, f3, ?_, f7, ?_, .snoc k0 bs .nil f9, ?_⟩
      · have h1 : (List.range (([] : List (Call S P C)).length + 1)).flatMap program = before ++ rest := by
          rw [← hbr]; simp
        have : Holding.empty.afterAll (before ++ rest) = (Holding.empty.afterAll before).afterAll rest := List.foldl_append
        rw [h1, this]; exact f4
      · rw [f8]; simp [framesIn]
      · rw [hreq] at f10
        simpa using f10
  | append_singleton ks k ih =>
    intro hk hd hg
    have hlast : (k0 :: (ks ++ [k]))[ks.length + 1]? = some k := by simp
    obtain ⟨E, V, es, e1, e2, e3, e4, e5, e6, e7, e8⟩ := ih (fun l hl => hk l (by
        simp only [List.mem_append, List.mem_cons] at hl ⊢; tauto))
      ⟨hd.notStarted, hd.part, fun l hl => hd.first l hl, fun i l hi hl => hd.later i l hi (by
        rw [← List.cons_append, List.getElem?_append_left]
        · exact hl
        · exact (List.getElem?_eq_some_iff.mp hl).1)⟩
      (by
        intro es hes
        obtain ⟨bs, hbs⟩ := exists_blocks hm sr (framesIn (k0 :: ks)) k.output.frameCount
        have := hg _ (by rw [← List.cons_append]; exact .snoc k bs hes hbs)
        rw [List.append_assoc] at this
        exact good_prefix this)
    have hreqs := hP.requests (ks.length + 1) (by omega)
    have hcmd := hd.later (ks.length + 1) k (by omega) hlast
    have hn : (List.range (ks.length + 1 + 1)).flatMap program =
        (List.range (ks.length + 1)).flatMap program ++ program (ks.length + 1) := by
      rw [List.range_succ, List.flatMap_append]; simp
    have hall := hc (ks.length + 1 + 1)
    rw [hn] at hall
    have hgood : ∀ bs, BlocksOf mf sr (framesIn (k0 :: ks)) k.output.frameCount bs → Good ops sr (Network.made (program 0))
        (es ++ changesOf (Network.requests (program (ks.length + 1))) ++ bs.map fun b => .block b.1 b.2) := by
      intro bs hbs
      exact hg _ (by rw [← List.cons_append]; exact .snoc k bs e7 hbs)
    obtain ⟨o, E1, X, W, f1, f2, f3, f4, f5, f6⟩ := call_progress (program := program (ks.length + 1)) (g := es)
      hm (hk k (by simp)) hcmd e3 e2 e4 (fun c hc => by
        have := hreqs c hc
        cases c <;> first | exact trivial | exact this.elim) e8
      (by rw [made_requests _ hreqs]; intro d hd; cases hd)
      ((allowed_append _ _ _).mp hall).2
      (by
        obtain ⟨bs, hbs⟩ := exists_blocks hm sr (framesIn (k0 :: ks)) k.output.frameCount
        exact good_prefix (hgood bs hbs))
      (by
        intro W hW _ bs hbs
        rw [(requests_still _ hreqs hW).2, e6] at hbs
        exact hgood bs hbs)
    obtain ⟨w1, w2⟩ := requests_still _ hreqs f5
    rw [e5] at w1
    rw [e6] at w2
    rcases f6 with ⟨_, f6, _⟩ | ⟨_, f7, f8, bs, f9, f10⟩
    · rw [w1] at f6; cases f6
    · rw [w2] at f8 f9
      refine ⟨E1, X, _, ?_, f2, f3, ?_, f7, ?_, by rw [← List.cons_append]; exact .snoc k bs e7 f9, f10⟩
      · rw [← List.cons_append, ← List.append_assoc]
        exact (calls_append _ _ _ _).mpr ⟨E, e1, (ok_bind f1).trans rfl⟩
      · have : Holding.empty.afterAll ((List.range (ks.length + 1)).flatMap program ++ program (ks.length + 1)) =
            (Holding.empty.afterAll ((List.range (ks.length + 1)).flatMap program)).afterAll (program (ks.length + 1)) :=
          List.foldl_append
        rw [List.length_append, List.length_singleton, hn, this]
        exact f4
      · rw [f8, ← List.cons_append]
        simp [framesIn, add_assoc]

end Processor
end Rawdio
