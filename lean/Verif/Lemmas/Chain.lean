import Verif.Spec.Chain
import Verif.Lemmas.EngineView
import Verif.Lemmas.Gain

/-! # Nodes connected in a row -/

namespace Rawdio
namespace Chain

open Processor

variable {S P C : Type}

/-- The neighbours in a row. -/
def pairs (ds : List (Dsp P)) : List (Dsp P × Dsp P) := ds.zip ds.tail

/-- What is written in a connection. -/
def key (c : Conn Connection) : Id × Id × Connection := (c.src, c.dst, c.data)

/-- The connection of two neighbours. -/
def link (x : Dsp P × Dsp P) : Connection := Connection.new x.1.id x.2.id x.1.outputCount

theorem connectNodes_chain (ds : List (Dsp P)) : ∀ d : Dsp P,
    connectNodes ((d :: ds).map (fun d => Stage.node ⟨d.id, d.outputCount⟩) ++ [.output]) =
      some ((pairs (d :: ds)).map (fun x => ApiCall.connectTo (P := P) (C := C) ⟨x.1.id, x.1.outputCount⟩
        ⟨x.2.id, x.2.outputCount⟩) ++
        [.connectToOutput ⟨((d :: ds).getLast (by simp)).id, ((d :: ds).getLast (by simp)).outputCount⟩]) := by
  induction ds with
  | nil => intro d; simp [connectNodes, pairs]
  | cons e ds ih =>
    intro d
    have h := ih e
    rw [List.map_cons, List.map_cons, List.cons_append, List.cons_append]
    cases ds with
    | nil => simp [connectNodes, pairs]
    | cons g ds =>
      rw [List.map_cons, List.cons_append] at *
      rw [connectNodes]
      rw [List.map_cons, List.cons_append] at h
      rw [h]
      simp [pairs]

theorem connectNodes_stages (fromInput : Bool) (d : Dsp P) (ds : List (Dsp P)) :
    connectNodes (chainStages fromInput (d :: ds)) =
      some ((if fromInput then [.connectToInput ⟨d.id, d.outputCount⟩] else []) ++
        (pairs (d :: ds)).map (fun x => ApiCall.connectTo (P := P) (C := C) ⟨x.1.id, x.1.outputCount⟩
        ⟨x.2.id, x.2.outputCount⟩) ++
        [.connectToOutput ⟨((d :: ds).getLast (by simp)).id, ((d :: ds).getLast (by simp)).outputCount⟩]) := by
  cases fromInput with
  | false => simpa [chainStages] using connectNodes_chain ds d
  | true =>
    have h := connectNodes_chain (C := C) ds d
    rw [chainStages, if_pos rfl, if_pos rfl, List.append_assoc, List.map_cons] at *
    cases ds with
    | nil => simp [connectNodes, pairs]
    | cons e ds =>
      simp only [List.map_cons, List.cons_append, List.nil_append] at *
      rw [connectNodes, h]
      rfl

/-- The commands of the program. -/
theorem program_commands (fromInput : Bool) (d : Dsp P) (ds : List (Dsp P)) :
    (chainProgram (C := C) fromInput (d :: ds)).map ApiCall.command =
      (d :: ds).map .addDsp ++ ((if fromInput then [.connectToInput ⟨.input, d.id⟩] else []) ++
        ((pairs (d :: ds)).map (fun x => .addConnection (link x)) ++
          [.connectToOutput ⟨.output, ((d :: ds).getLast (by simp)).id⟩, .start])) := by
  rw [chainProgram, connectNodes_stages, Option.getD_some]
  simp only [List.map_append, List.map_map, List.append_assoc]
  congr 1
  congr 1
  cases fromInput <;> rfl

theorem effects_append {ops : NodeOps S P C} (as : List (Command P C)) : ∀ {bs : List (Command P C)} {V W : View P},
    Command.Effects ops V (as ++ bs) W → ∃ U, Command.Effects ops V as U ∧ Command.Effects ops U bs W := by
  induction as with
  | nil => intro bs V W h; exact ⟨V, .nil V, h⟩
  | cons a as ih =>
    intro bs V W h
    cases h with
    | cons h1 h2 =>
      obtain ⟨U, u1, u2⟩ := ih h2
      exact ⟨U, .cons h1 u1, u2⟩

/-- The node of an identity in a row. -/
def lookup (ds : List (Dsp P)) (i : Id) : Option (Dsp P) := ds.find? (fun d => d.id == i)

theorem lookup_mem {ds : List (Dsp P)} (hd : (ds.map Dsp.id).Nodup) {d : Dsp P} (h : d ∈ ds) :
    lookup ds d.id = some d := by
  induction ds with
  | nil => cases h
  | cons e ds ih =>
    rw [List.map_cons, List.nodup_cons] at hd
    rw [lookup, List.find?_cons]
    rcases List.mem_cons.mp h with rfl | h
    · simp
    · have : e.id ≠ d.id := fun he => hd.1 (he ▸ List.mem_map_of_mem h)
      rw [show (e.id == d.id) = false by simpa using this]
      exact ih hd.2 h

theorem lookup_none {ds : List (Dsp P)} {i : Id} : lookup ds i = none ↔ i ∉ ds.map Dsp.id := by
  simp [lookup]

theorem creates_effects {ops : NodeOps S P C} (ds : List (Dsp P)) : ∀ (before : List (Dsp P)) (V W : View P),
    V.patch.nodes = before.map Dsp.id → V.patch.conns = [] → V.node = lookup before → (before.map Dsp.id).Nodup →
    Command.Effects ops V (ds.map .addDsp) W →
    W.patch.nodes = (before ++ ds).map Dsp.id ∧ W.patch.conns = [] ∧ W.node = lookup (before ++ ds) ∧
      ((before ++ ds).map Dsp.id).Nodup ∧ W.fromSystem = V.fromSystem ∧ W.toSystem = V.toSystem ∧
      W.frames = V.frames ∧ W.running = V.running := by
  induction ds with
  | nil =>
    intro before V W h1 h2 h3 h4 h
    cases h
    simp [h1, h2, h3, h4]
  | cons d ds ih =>
    intro before V W h1 h2 h3 h4 h
    rw [List.map_cons] at h
    cases h with
    | cons h5 h6 =>
      cases h5 with
      | addDsp _ q hq =>
        cases hq with
        | addNode _ _ hn =>
          rw [h1] at hn
          have := ih (before ++ [d]) ⟨⟨V.patch.nodes ++ [d.id], V.patch.conns⟩,
            fun i => if i = d.id then some d else V.node i, V.running, V.fromSystem, V.toSystem, V.frames⟩ W
            (by simp [h1]) h2 ?_ ?_ h6
          · simpa using this
          · funext i
            simp only [h3, lookup, List.find?_append, List.find?_cons, List.find?_nil]
            by_cases hi : i = d.id
            · subst hi
              have : List.find? (fun e => e.id == d.id) before = none := lookup_none.mpr hn
              simp [this]
            · have : (d.id == i) = false := by simpa using fun h => hi h.symm
              simp [hi, this]
          · rw [List.map_append, List.map_singleton, List.nodup_append]
            refine ⟨h4, by simp, ?_⟩
            intro a ha b hb
            rw [List.mem_singleton] at hb
            subst hb
            exact fun h => hn (h ▸ ha)

theorem links_effects {ops : NodeOps S P C} (xs : List (Dsp P × Dsp P)) : ∀ (V W : View P),
    Command.Effects ops V (xs.map fun x => .addConnection (link x)) W →
    W.patch.nodes = V.patch.nodes ∧ W.node = V.node ∧ W.fromSystem = V.fromSystem ∧ W.toSystem = V.toSystem ∧
      W.frames = V.frames ∧ W.running = V.running ∧
      W.patch.conns.map key = V.patch.conns.map key ++ xs.map (fun x => (x.1.id, x.2.id, link x)) := by
  induction xs with
  | nil => intro V W h; cases h; simp
  | cons x xs ih =>
    intro V W h
    rw [List.map_cons] at h
    cases h with
    | cons h1 h2 =>
      cases h1 with
      | addConnection _ id q hid hq =>
        cases hq with
        | connect _ _ _ _ ha hb =>
          obtain ⟨i1, i2, i3, i4, i5, i6, i7⟩ := ih _ _ h2
          refine ⟨i1, i2, i3, i4, i5, i6, ?_⟩
          rw [i7]
          simp [key, link, Connection.new]

/-- What the program sees between process calls. -/
structure Playing (fromInput : Bool) (ds : List (Dsp P)) (frames : Nat) (V : View P) : Prop where
  nodes : V.patch.nodes = ds.map Dsp.id
  nodup : (ds.map Dsp.id).Nodup
  conns : V.patch.conns.map key = (pairs ds).map fun x => (x.1.id, x.2.id, link x)
  node : V.node = lookup ds
  running : V.running = true
  fromSystem : V.fromSystem = if fromInput then ds.head?.map Dsp.id else none
  toSystem : V.toSystem = ds.getLast?.map Dsp.id
  frames : V.frames = frames

theorem setup_effects {ops : NodeOps S P C} {fromInput : Bool} {ds : List (Dsp P)} (hne : ds ≠ []) {W : View P}
    (h : Command.Effects ops View.empty ((chainProgram fromInput ds).map ApiCall.command) W) :
    Playing fromInput ds 0 W := by
  cases ds with
  | nil => exact absurd rfl hne
  | cons d ds =>
    rw [program_commands] at h
    obtain ⟨U1, u1, h⟩ := effects_append _ h
    obtain ⟨U2, u2, h⟩ := effects_append _ h
    obtain ⟨U3, u3, h⟩ := effects_append _ h
    obtain ⟨a1, a2, a3, a4, a5, a6, a7, a8⟩ := creates_effects (d :: ds) [] View.empty U1 rfl rfl rfl (by simp) u1
    rw [List.nil_append] at a1 a3 a4
    have hU2 : U2.patch = U1.patch ∧ U2.node = U1.node ∧ U2.frames = U1.frames ∧ U2.toSystem = U1.toSystem ∧
        U2.fromSystem = if fromInput then some d.id else none := by
      cases fromInput with
      | false => cases u2; exact ⟨rfl, rfl, rfl, rfl, a5⟩
      | true =>
        rw [if_pos rfl] at u2
        cases u2 with
        | cons v1 v2 => cases v1; cases v2; exact ⟨rfl, rfl, rfl, rfl, rfl⟩
    obtain ⟨b1, b2, b3, b4, b5⟩ := hU2
    obtain ⟨c1, c2, c3, c4, c5, c6, c7⟩ := links_effects _ _ _ u3
    cases h with
    | cons v1 v2 =>
    cases v1
    cases v2 with
    | cons v1 v2 =>
    cases v1
    cases v2
    refine ⟨?_, a4, ?_, ?_, rfl, ?_, ?_, ?_⟩
    · simp only [c1, b1, a1]
    · simp only [c7, b1, a2, List.map_nil, List.nil_append]
    · simp only [c2, b2, a3]
    · simp only [c3, b5, List.head?_cons, Option.map_some]
    · simp only [List.getLast?_eq_some_getLast (List.cons_ne_nil d ds), Option.map_some]
    · simp only [c5, b3, a7]; rfl

/-- A row with a new state for one node. -/
def update (i : Id) (s : P) (ds : List (Dsp P)) : List (Dsp P) :=
  ds.map fun e => if e.id = i then { e with state := s } else e

theorem mapM_pure {α β : Type} (f : α → Res β) (g : α → β) (as : List α) (h : ∀ a ∈ as, f a = .ok (g a)) :
    as.mapM f = .ok (as.map g) := by
  induction as with
  | nil => rfl
  | cons a as ih =>
    rw [List.mapM_cons, h a (by simp), ih (fun b hb => h b (by simp [hb]))]
    rfl

theorem chainChange_absent {ops : NodeOps S P C} {i : Id} {c : C} {ds : List (Dsp P)} (h : lookup ds i = none) :
    chainChange ops i c ds = .ok ds := by
  rw [lookup_none] at h
  rw [chainChange, mapM_pure _ id, List.map_id]
  intro d hd
  have : d.id ≠ i := fun hi => h (hi ▸ List.mem_map_of_mem hd)
  rw [if_neg this]
  rfl

theorem chainChange_present {ops : NodeOps S P C} {i : Id} {c : C} {ds : List (Dsp P)} {d : Dsp P} {s : P}
    (hn : (ds.map Dsp.id).Nodup) (h : lookup ds i = some d) (hs : ops.change d.state c = .ok s) :
    chainChange ops i c ds = .ok (update i s ds) := by
  rw [chainChange, mapM_pure _ (fun e => if e.id = i then { e with state := s } else e), update]
  intro e he
  by_cases hi : e.id = i
  · have := lookup_mem hn he
    rw [hi, h] at this
    injection this with this
    subst this
    rw [if_pos hi, if_pos hi, hs]
    rfl
  · rw [if_neg hi, if_neg hi]
    rfl

theorem map_shape {i : Id} {s : P} (ds : List (Dsp P)) {β : Type} (f : Dsp P → β)
    (hf : ∀ d : Dsp P, f { d with state := s } = f d) : (update i s ds).map f = ds.map f := by
  rw [update, List.map_map]
  apply List.map_congr_left
  intro d _
  simp only [Function.comp_apply]
  split
  · exact hf d
  · rfl

theorem lookup_update {i : Id} {s : P} {ds : List (Dsp P)} {d : Dsp P} (h : lookup ds i = some d) :
    lookup (update i s ds) = fun j => if j = i then some { d with state := s } else lookup ds j := by
  have hi : d.id = i := by simpa using List.find?_some h
  funext j
  induction ds with
  | nil => cases h
  | cons e ds ih =>
    rw [update, List.map_cons, lookup, List.find?_cons]
    rw [lookup, List.find?_cons] at h
    have hcons : lookup (e :: ds) j = if (e.id == j) = true then some e else lookup ds j := by
      rw [lookup, List.find?_cons]
      cases e.id == j <;> rfl
    rw [hcons]
    by_cases he : e.id = i
    · rw [show (e.id == i) = true by simpa using he] at h
      injection h with h
      subst h
      rw [if_pos he]
      by_cases hj : j = i
      · subst hj
        rw [if_pos rfl]
        simp [he]
      · rw [if_neg hj]
        have h1 : (e.id == j) = false := by simpa [he] using fun h => hj h.symm
        rw [h1]
        show lookup (update i s ds) j = _
        simp only [Bool.false_eq_true, if_false]
        rw [lookup, lookup, update, List.find?_map]
        have : ∀ e : Dsp P, ((fun d : Dsp P => d.id == j) ∘ fun e => if e.id = i then { e with state := s } else e) e =
            (e.id == j) := by intro e; simp only [Function.comp_apply]; split <;> rfl
        rw [funext this]
        cases hf : List.find? (fun e => e.id == j) ds with
        | none => rfl
        | some g =>
          have hg : g.id = j := by simpa using List.find?_some hf
          rw [Option.map_some, if_neg (by rw [hg]; exact hj)]
    · rw [show (e.id == i) = false by simpa using he] at h
      rw [if_neg he]
      have := ih h
      rw [update, lookup] at this
      by_cases hj : (e.id == j) = true
      · have hji : j ≠ i := by
          rintro rfl; exact he (by simpa using hj)
        rw [hj, if_neg hji]
        rfl
      · rw [show (e.id == j) = false by simpa using hj]
        simp only [Bool.false_eq_true, if_false]
        exact this

theorem pairs_update {i : Id} {s : P} (ds : List (Dsp P)) {β : Type} (f : Dsp P × Dsp P → β)
    (hf : ∀ (a b : Dsp P) , f ({ a with state := s }, b) = f (a, b) ∧ f (a, { b with state := s }) = f (a, b)) :
    (pairs (update i s ds)).map f = (pairs ds).map f := by
  have : pairs (update i s ds) = (pairs ds).map (Prod.map (fun e => if e.id = i then { e with state := s } else e)
      (fun e => if e.id = i then { e with state := s } else e)) := by
    rw [pairs, pairs, update, ← List.map_tail, List.zip_map]
  rw [this, List.map_map]
  apply List.map_congr_left
  rintro ⟨a, b⟩ _
  simp only [Function.comp_apply, Prod.map_apply]
  split <;> split <;> simp [hf]

theorem changes_effects [Zero S] {ops : NodeOps S P C} {fromInput : Bool} {F : Nat} (cs : List (Id × C)) :
    ∀ (ds : List (Dsp P)) (V W : View P), Playing fromInput ds F V →
    Command.Effects ops V (cs.map fun x => .change x.1 x.2) W →
    ∃ ds', Playing fromInput ds' F W ∧ (ds = [] → ds' = []) ∧ ds'.map Dsp.outputCount = ds.map Dsp.outputCount ∧
      ∀ sr es x, chainRun ops sr ds (cs.map (fun x => .change x.1 x.2) ++ es) x = chainRun ops sr ds' es x := by
  induction cs with
  | nil =>
    intro ds V W hV h
    cases h
    exact ⟨ds, hV, id, rfl, fun _ _ _ => rfl⟩
  | cons c cs ih =>
    intro ds V W hV h
    rw [List.map_cons] at h
    cases h with
    | cons h1 h2 =>
      cases h1 with
      | change _ _ d s e1 e2 =>
        rw [hV.node] at e1
        have hids := map_shape (i := c.1) (s := s) ds Dsp.id (fun _ => rfl)
        have hP : Playing fromInput (update c.1 s ds) F
            { V with node := fun j => if j = c.1 then some { d with state := s } else V.node j } := by
          refine ⟨?_, ?_, ?_, ?_, hV.running, ?_, ?_, hV.frames⟩
          · rw [hids]; exact hV.nodes
          · rw [hids]; exact hV.nodup
          · rw [pairs_update]
            · exact hV.conns
            · intro a b; exact ⟨rfl, rfl⟩
          · rw [lookup_update e1, ← hV.node]
          · rw [← List.head?_map, hids, List.head?_map]; exact hV.fromSystem
          · rw [← List.getLast?_map, hids, List.getLast?_map]; exact hV.toSystem
        obtain ⟨ds', p1, p2, p3, p4⟩ := ih _ _ _ hP h2
        refine ⟨ds', p1, fun h => p2 (by rw [h]; rfl), ?_, ?_⟩
        · rw [p3, map_shape ds Dsp.outputCount (fun _ => rfl)]
        · intro sr es x
          rw [List.map_cons, List.cons_append, chainRun, chainChange_present hV.nodup e1 e2]
          exact p4 sr es x
      | changeAbsent _ _ e1 =>
        rw [hV.node] at e1
        obtain ⟨ds', p1, p2, p3, p4⟩ := ih _ _ _ hV h2
        refine ⟨ds', p1, p2, p3, ?_⟩
        intro sr es x
        rw [List.map_cons, List.cons_append, chainRun, chainChange_absent e1]
        exact p4 sr es x

theorem pairs_cons (a b : Dsp P) (ds : List (Dsp P)) : pairs (a :: b :: ds) = (a, b) :: pairs (b :: ds) := rfl

theorem pairs_snd (ds : List (Dsp P)) : (pairs ds).map (fun x => x.2.id) = (ds.map Dsp.id).tail := by
  cases ds with
  | nil => rfl
  | cons d ds =>
    rw [pairs, List.tail_cons, List.map_cons, List.tail_cons]
    have : (fun x : Dsp P × Dsp P => x.2.id) = Dsp.id ∘ Prod.snd := rfl
    rw [this, ← List.map_map, List.map_snd_zip]
    simp

/-- The connections into a node, when no two connections lead to the same node. -/
theorem incoming_eq {p : Patch Connection} {ds : List (Dsp P)} (hn : (ds.map Dsp.id).Nodup)
    (hc : p.conns.map key = (pairs ds).map fun x => (x.1.id, x.2.id, link x)) {x : Dsp P × Dsp P} (hx : x ∈ pairs ds) :
    ∃ k, p.at' x.2.id .incoming = [k] ∧ k.src = x.1.id ∧ k.data.Plain := by
  obtain ⟨as, bs, hab⟩ := List.append_of_mem hx
  rw [hab, List.map_append, List.map_cons] at hc
  obtain ⟨ps, qs, h1, h2, h3⟩ := List.map_eq_append_iff.mp hc
  obtain ⟨k, rs, rfl, h5, h6⟩ := List.map_eq_cons_iff.mp h3
  have hnd : ((pairs ds).map fun x => x.2.id).Nodup := by
    rw [pairs_snd]; exact hn.sublist (List.tail_sublist _)
  rw [hab, List.map_append, List.map_cons, List.nodup_append] at hnd
  obtain ⟨n1, n2, n3⟩ := hnd
  rw [List.nodup_cons] at n2
  simp only [key, Prod.mk.injEq] at h5
  refine ⟨k, ?_, h5.1, ?_⟩
  · rw [Patch.at', h1, List.filter_append, List.filter_cons]
    have hp : ps.filter (fun c => c.near .incoming == x.2.id) = [] := by
      rw [List.filter_eq_nil_iff]
      intro c hc' he
      have he : c.dst = x.2.id := by simpa [Conn.near] using he
      have hm : key c ∈ ps.map key := List.mem_map_of_mem hc'
      rw [h2] at hm
      obtain ⟨y, hy, hy2⟩ := List.mem_map.mp hm
      simp only [key, Prod.mk.injEq] at hy2
      exact n3 _ (List.mem_map_of_mem (f := fun x : Dsp P × Dsp P => x.2.id) hy) _ (List.mem_cons_self)
        (hy2.2.1.trans he)
    have hq : rs.filter (fun c => c.near .incoming == x.2.id) = [] := by
      rw [List.filter_eq_nil_iff]
      intro c hc' he
      have he : c.dst = x.2.id := by simpa [Conn.near] using he
      have hm : key c ∈ rs.map key := List.mem_map_of_mem hc'
      rw [h6] at hm
      obtain ⟨y, hy, hy2⟩ := List.mem_map.mp hm
      simp only [key, Prod.mk.injEq] at hy2
      exact n2.1 (List.mem_map.mpr ⟨y, hy, hy2.2.1.trans he⟩)
    rw [hp, hq, if_pos (by simpa [Conn.near] using h5.2.1)]
    rfl
  · rw [h5.2.2]
    exact ⟨rfl, rfl⟩

/-- Nothing is connected to the first. -/
theorem incoming_head {p : Patch Connection} {d : Dsp P} {ds : List (Dsp P)} (hn : ((d :: ds).map Dsp.id).Nodup)
    (hc : p.conns.map key = (pairs (d :: ds)).map fun x => (x.1.id, x.2.id, link x)) :
    p.at' d.id .incoming = [] := by
  rw [Patch.at', List.filter_eq_nil_iff]
  intro c hc' he
  have he : c.dst = d.id := by simpa [Conn.near] using he
  have hm : key c ∈ p.conns.map key := List.mem_map_of_mem hc'
  rw [hc] at hm
  obtain ⟨y, hy, hy2⟩ := List.mem_map.mp hm
  simp only [key, Prod.mk.injEq] at hy2
  have h1 : y.2.id ∈ (pairs (d :: ds)).map fun x => x.2.id := List.mem_map.mpr ⟨y, hy, rfl⟩
  rw [pairs_snd, List.map_cons, List.tail_cons, hy2.2.1, he] at h1
  rw [List.map_cons, List.nodup_cons] at hn
  exact hn.1 h1

/-- A block of a patch in which each node of a row is given what the one before sends out. -/
theorem chain_block [Zero S] {ops : NodeOps S P C} {p : Patch Connection} {before after : Id → Option (Dsp P)}
    {frames sr : Nat} {t : Int} {inputOf : Signals S → Id → Nat → Nat → S} {sig : Signals S}
    (hr : Rendered ops p before frames sr t inputOf sig after) (ds : List (Dsp P)) :
    ∀ (d : Dsp P) (x : Nat → Nat → S), (∀ e ∈ d :: ds, e.id ∈ p.nodes ∧ before e.id = some e) →
    (∀ y ∈ pairs (d :: ds), inputOf sig y.2.id = sig y.1.id) →
    (∀ c f, f < frames → inputOf sig d.id c f = x c f) →
    ∃ ds', chainBlock ops sr t frames (d :: ds) x = .ok (sig ((d :: ds).getLast (by simp)).id, ds') ∧
      ds'.map (fun d => (d.id, d.inputCount, d.outputCount)) =
        (d :: ds).map (fun d => (d.id, d.inputCount, d.outputCount)) ∧
      ∀ e ∈ ds', after e.id = some e := by
  induction ds with
  | nil =>
    intro d x hm _ hx
    obtain ⟨d', out, st, r1, r2, r3, r4⟩ := hr.run d.id (hm d (by simp)).1
    rw [(hm d (by simp)).2] at r1
    injection r1 with r1
    subst r1
    have hw : window d.inputCount frames (inputOf sig d.id) = window d.inputCount frames x := by
      funext c f
      unfold window
      split
      · rename_i h; rw [hx c f h.2]
      · rfl
    rw [hw] at r2
    refine ⟨[{ d with state := st }], ?_, rfl, ?_⟩
    · rw [chainBlock, r2]
      have : clip d.outputCount frames out = sig d.id := by
        funext c f; rw [r4 c f]; rfl
      simp [chainBlock, this, bind, Except.bind, pure, Except.pure]
    · intro e he
      rw [List.mem_singleton] at he
      subst he
      exact r3
  | cons b ds ih =>
    intro d x hm hp hx
    obtain ⟨d', out, st, r1, r2, r3, r4⟩ := hr.run d.id (hm d (by simp)).1
    rw [(hm d (by simp)).2] at r1
    injection r1 with r1
    subst r1
    have hw : window d.inputCount frames (inputOf sig d.id) = window d.inputCount frames x := by
      funext c f
      unfold window
      split
      · rename_i h; rw [hx c f h.2]
      · rfl
    rw [hw] at r2
    have hcl : clip d.outputCount frames out = sig d.id := by funext c f; rw [r4 c f]; rfl
    obtain ⟨ds', i1, i2, i3⟩ := ih b (sig d.id) (fun e he => hm e (by simp [List.mem_cons.mp he]))
      (fun y hy => hp y (by rw [pairs_cons]; exact List.mem_cons_of_mem _ hy))
      (fun c f _ => by rw [hp (d, b) (by rw [pairs_cons]; exact List.mem_cons_self)])
    refine ⟨{ d with state := st } :: ds', ?_, ?_, ?_⟩
    · rw [chainBlock, r2]
      simp only [bind, Except.bind, hcl, i1, pure, Except.pure, List.getLast_cons (List.cons_ne_nil b ds)]
    · rw [List.map_cons, i2]; rfl
    · intro e he
      rcases List.mem_cons.mp he with rfl | he
      · exact r3
      · exact i3 e he

theorem chainRun_append [Zero S] (ops : NodeOps S P C) (sr : Nat) (es fs : List (ChainEvent C)) :
    ∀ (ds : List (Dsp P)) (x : Nat → Nat → S), chainRun ops sr ds (es ++ fs) x = (do
      let q ← chainRun ops sr ds es x
      let r ← chainRun ops sr q.2 fs (later (ChainEvent.total es) x)
      return (followed (ChainEvent.total es) q.1 r.1, r.2)) := by
  induction es with
  | nil =>
    intro ds x
    have h1 : later 0 x = x := by funext c f; simp [later]
    have h2 : ∀ y : Nat → Nat → S, followed 0 silence y = y := by
      intro y; funext c f; simp [followed]
    simp only [List.nil_append, chainRun, ChainEvent.total, List.map_nil, List.sum_nil, bind, Except.bind, h1, h2,
      pure, Except.pure]
    cases chainRun ops sr ds fs x <;> rfl
  | cons e es ih =>
    intro ds x
    cases e with
    | change i c =>
      rw [List.cons_append, chainRun, chainRun]
      cases chainChange ops i c ds with
      | error e => rfl
      | ok ds' =>
        simp only [bind, Except.bind]
        have := ih ds' x
        simp only [bind, Except.bind] at this
        rw [this]
        simp only [ChainEvent.total, List.map_cons, List.sum_cons, ChainEvent.frames, Nat.zero_add]
    | block t n =>
      rw [List.cons_append, chainRun, chainRun]
      cases chainBlock ops sr t n ds x with
      | error e => rfl
      | ok q =>
        simp only [bind, Except.bind, pure, Except.pure]
        have := ih q.2 (later n x)
        simp only [bind, Except.bind, pure, Except.pure] at this
        rw [this]
        have h1 : later (ChainEvent.total es) (later n x) = later (ChainEvent.total (.block t n :: es)) x := by
          funext c f
          simp [later, ChainEvent.total, ChainEvent.frames, Nat.add_assoc]
        rw [h1]
        cases chainRun ops sr q.2 es (later n x) with
        | error e => rfl
        | ok r =>
          simp only
          cases chainRun ops sr r.2 fs (later (ChainEvent.total (.block t n :: es)) x) with
          | error e => rfl
          | ok u =>
            simp only [Except.ok.injEq, Prod.mk.injEq, and_true]
            funext c f
            have ht : ChainEvent.total (.block t n :: es) = n + ChainEvent.total es := by
              simp [ChainEvent.total, ChainEvent.frames]
            rw [ht]
            simp only [followed]
            by_cases hf : f < n
            · rw [if_pos hf, if_pos (by omega), if_pos hf]
            · rw [if_neg hf, if_neg hf]
              by_cases hg : f < n + ChainEvent.total es
              · rw [if_pos (by omega), if_pos hg]
              · rw [if_neg (by omega), if_neg hg, Nat.sub_sub]

/-- The input of a process call. -/
def callInput [Zero S] (fromInput : Bool) (mc : Nat) (input : Buf S) (c f : Nat) : S :=
  if fromInput = true ∧ c < mc then input.sampleOrSilence c f else 0

/-- What does not change of a node. -/
def shape (d : Dsp P) : Id × Nat × Nat := (d.id, d.inputCount, d.outputCount)

theorem shape_ids {ds ds' : List (Dsp P)} (h : ds'.map shape = ds.map shape) : ds'.map Dsp.id = ds.map Dsp.id := by
  have := congrArg (List.map Prod.fst) h
  rwa [List.map_map, List.map_map] at this

theorem shape_pairs {ds ds' : List (Dsp P)} (h : ds'.map shape = ds.map shape) :
    (pairs ds').map (fun x => (x.1.id, x.2.id, link x)) = (pairs ds).map (fun x => (x.1.id, x.2.id, link x)) := by
  have key : ∀ ds : List (Dsp P), (pairs ds).map (fun x => (x.1.id, x.2.id, link x)) =
      ((ds.map shape).zip (ds.map shape).tail).map
        (fun x => (x.1.1, x.2.1, Connection.new x.1.1 x.2.1 x.1.2.2)) := by
    intro ds
    rw [← List.map_tail, List.zip_map, List.map_map]
    rfl
  rw [key, key, h]

/-- One process call. -/
theorem chain_call [Zero S] [Add S] {ops : NodeOps S P C} {fromInput : Bool} {p : Patch Connection}
    {full total channels mc sr offset : Nat} {now : Int} {input : Buf S} {fs ts : Option Id}
    {out : Nat → Nat → Option S} {before after : Id → Option (Dsp P)} (hfull : 0 < full)
    (h : RenderedCall ops p full total channels mc sr now input fs ts out offset before after) :
    offset ≤ total → ∀ ds : List (Dsp P), ds ≠ [] → (ds.map Dsp.id).Nodup → before = lookup ds →
    p.nodes = ds.map Dsp.id → p.conns.map key = (pairs ds).map (fun x => (x.1.id, x.2.id, link x)) →
    fs = (if fromInput then ds.head?.map Dsp.id else none) → ts = ds.getLast?.map Dsp.id →
    ∃ tiles, Tiles full offset total tiles ∧ ∃ y ds',
      chainRun ops sr ds (tiles.map fun b => .block (Timestamp.incrementedBySamples now b.1 sr) b.2)
        (later offset (callInput fromInput mc input)) = .ok (y, ds') ∧
      after = lookup ds' ∧ ds'.map shape = ds.map shape ∧
      ∀ c f, c < channels → offset ≤ f → f < total → out c f = some (if c < mc then y c (f - offset) else 0) := by
  induction h with
  | done offset states hd =>
    intro hle ds _ _ hb _ _ _ _
    exact ⟨[], by simp only [Tiles]; omega, silence, ds, rfl, hb, rfl, fun c f _ h1 h2 => by omega⟩
  | block offset frames before mid after window sig h1 h2 h3 h4 hr ho' _ ih =>
    intro hle ds hne hnd hb hn hc hfs hts
    obtain ⟨d, ds, rfl⟩ := List.exists_cons_of_ne_nil hne
    have q1 : ∀ e ∈ d :: ds, e.id ∈ p.nodes ∧ before e.id = some e := by
      intro e he
      rw [hn, hb]
      exact ⟨List.mem_map_of_mem he, lookup_mem hnd he⟩
    have q2 : ∀ y ∈ pairs (d :: ds), p.received (arrivesFromSystem fs window (min input.channelCount mc) frames) sig
        y.2.id = sig y.1.id := by
      intro x hx
      obtain ⟨k, k1, k2, k3⟩ := incoming_eq hnd hc hx
      funext c f
      rw [Patch.received, k1]
      simp only [k2, k3, and_self, if_true]
    have q3 : ∀ c f, f < frames → p.received (arrivesFromSystem fs window (min input.channelCount mc) frames) sig
        d.id c f = later offset (callInput fromInput mc input) c f := by
      intro c f hf
      rw [Patch.received, incoming_head hnd hc]
      simp only [arrivesFromSystem, hfs, List.head?_cons, Option.map_some, later, callInput, Buf.sampleOrSilence]
      cases fromInput with
      | false => simp
      | true =>
        simp only [if_true, true_and]
        by_cases hci : c < input.channelCount
        · by_cases hcm : c < mc
          · rw [if_pos ⟨by omega, hf⟩, if_pos hcm, h4 c f hf]
          · rw [if_neg (by omega), if_neg hcm]
        · rw [if_neg (by omega), Buf.sample?_eq_none _ _ _ (by omega)]
          simp
    obtain ⟨ds1, e1, e2, e3⟩ := chain_block hr ds d (later offset (callInput fromInput mc input))
      q1 q2 q3
    have hsh : ds1.map shape = (d :: ds).map shape := e2
    have hids := shape_ids hsh
    have hmid : mid = lookup ds1 := by
      funext i
      by_cases hi : i ∈ ds1.map Dsp.id
      · obtain ⟨e, he, rfl⟩ := List.mem_map.mp hi
        rw [e3 e he, lookup_mem (by rw [hids]; exact hnd) he]
      · rw [lookup_none.mpr hi]
        exact hr.gone i (by rw [hn, ← hids]; exact hi)
    have hne1 : ds1 ≠ [] := by rintro rfl; simp at hsh
    obtain ⟨tiles, t1, y, ds2, t2, t3, t4, t5⟩ := ih (by omega) ds1 hne1 (by rw [hids]; exact hnd) hmid
      (by rw [hids]; exact hn) (by rw [shape_pairs hsh]; exact hc)
      (by rw [← List.head?_map, hids, List.head?_map]; exact hfs)
      (by rw [← List.getLast?_map, hids, List.getLast?_map]; exact hts)
    refine ⟨(offset, frames) :: tiles, ⟨rfl, by omega, by omega, by omega, t1⟩,
      followed frames (sig ((d :: ds).getLast (by simp)).id) y, ds2, ?_, t3, t4.trans hsh, ?_⟩
    · have hl : later frames (later offset (callInput fromInput mc input)) =
          later (offset + frames) (callInput fromInput mc input) := by
        funext c f; simp [later, Nat.add_assoc]
      rw [List.map_cons, chainRun, e1]
      simp only [bind, Except.bind, hl, t2]
      rfl
    · intro c f hcc hf1 hf2
      by_cases hf : f < offset + frames
      · obtain ⟨g, rfl⟩ := Nat.exists_eq_add_of_le hf1
        have hg : g < frames := by omega
        rw [ho' c g hcc hg, hts, List.getLast?_eq_some_getLast (List.cons_ne_nil d ds), Option.map_some]
        have hmem : ((d :: ds).getLast (List.cons_ne_nil d ds)).id ∈ p.nodes := by
          rw [hn]; exact List.mem_map_of_mem (List.getLast_mem _)
        simp only [hmem, true_and, followed, Nat.add_sub_cancel_left, if_pos hg]
      · have hfo : ¬ f - offset < frames := by omega
        rw [t5 c f hcc (by omega) hf2]
        simp only [followed, if_neg hfo]
        rw [show f - (offset + frames) = f - offset - frames by omega]

/-- The number of frames of the blocks of a process call. -/
theorem blocks_total {full sr first total : Nat} {bs : List (Int × Nat)} (h : BlocksOf full sr first total bs) :
    ChainEvent.total (bs.map fun b => (.block b.1 b.2 : ChainEvent C)) = total := by
  have := Gain.blocksOf_length h
  rw [← this]
  clear h this
  induction bs with
  | nil => rfl
  | cons b bs ih =>
    rw [RealtimeParameter.frameTimes_cons, List.length_append, ← ih]
    simp [ChainEvent.total, ChainEvent.frames]

/-- The next process call. -/
theorem step_stream [Zero S] [Add S] {ops : NodeOps S P C} {fromInput : Bool} {mf mc sr F : Nat} (hm : 0 < mf)
    {ds0 ds : List (Dsp P)} (hne : ds ≠ []) {cs : List (Id × C)} {V W : View P} {first : Bool}
    (hV : if first then V = View.empty ∧ ds = ds0 ∧ F = 0 else Playing fromInput ds F V)
    {k : Rawdio.Call S P C}
    (hk : k.commands.map Prod.fst = (if first then (chainProgram fromInput ds0).map ApiCall.command else []) ++
      cs.map fun x => .change x.1 x.2)
    {out : Nat → Nat → Option S} (h : View.Call ops mf mc sr V k out W) :
    ∃ bs, BlocksOf mf sr F k.output.frameCount bs ∧ ∃ y ds', ds' ≠ [] ∧
      chainRun ops sr ds (cs.map (fun x => .change x.1 x.2) ++ bs.map fun b => .block b.1 b.2)
        (callInput fromInput mc k.input) = .ok (y, ds') ∧
      Playing fromInput ds' (F + k.output.frameCount) W ∧
      ∀ c f, c < k.output.channelCount → f < k.output.frameCount → out c f = some (if c < mc then y c f else 0) := by
  have key : ∀ U, Command.Effects ops V (k.commands.map Prod.fst) U → ∃ ds1, ds1 ≠ [] ∧ Playing fromInput ds1 F U ∧
      ∀ sr es x, chainRun ops sr ds (cs.map (fun x => .change x.1 x.2) ++ es) x = chainRun ops sr ds1 es x := by
    intro U hU
    rw [hk] at hU
    have hstart : ∃ V', Playing fromInput ds F V' ∧ Command.Effects ops V' (cs.map fun x => .change x.1 x.2) U := by
      cases first with
      | false => exact ⟨V, by simpa using hV, by simpa using hU⟩
      | true =>
        obtain ⟨rfl, rfl, rfl⟩ : V = View.empty ∧ ds = ds0 ∧ F = 0 := by simpa using hV
        rw [if_pos rfl] at hU
        obtain ⟨V', v1, v2⟩ := effects_append _ hU
        exact ⟨V', setup_effects hne v1, v2⟩
    obtain ⟨V', v1, v2⟩ := hstart
    obtain ⟨ds1, p1, _, p3, p4⟩ := changes_effects cs ds V' U v1 v2
    refine ⟨ds1, ?_, p1, p4⟩
    rintro rfl
    have := congrArg List.length p3
    simp only [List.map_nil, List.length_nil, List.length_map] at this
    exact hne (List.length_eq_zero_iff.mp this.symm)
  cases h with
  | stopped _ _ _ e1 e2 _ =>
    obtain ⟨ds1, _, p1, _⟩ := key _ e1
    rw [p1.running] at e2
    cases e2
  | running W' _ now node _ e1 e2 e3 e4 =>
    obtain ⟨ds1, hne1, p1, p2⟩ := key _ e1
    obtain ⟨tiles, t1, y, ds', t2, t3, t4, t5⟩ := chain_call (fromInput := fromInput) hm e4 (Nat.zero_le _) ds1 hne1
      p1.nodup p1.node p1.nodes p1.conns p1.fromSystem p1.toSystem
    rw [p1.frames] at e3
    have hids := shape_ids t4
    refine ⟨_, ⟨now, tiles, e3, t1, rfl⟩, y, ds', ?_, ?_, ?_, ?_⟩
    · rintro rfl; simp at t4; exact hne1 t4
    · rw [p2, List.map_map]
      have : later 0 (callInput fromInput mc k.input) = callInput fromInput mc k.input := by
        funext c f; simp [later]
      rw [this] at t2
      exact t2
    · refine ⟨by rw [hids]; exact p1.nodes, by rw [hids]; exact p1.nodup, by rw [shape_pairs t4]; exact p1.conns, t3,
        p1.running, ?_, ?_, by simp only [p1.frames]⟩
      · rw [← List.head?_map, hids, List.head?_map]; exact p1.fromSystem
      · rw [← List.getLast?_map, hids, List.getLast?_map]; exact p1.toSystem
    · intro c f hc hf
      rw [t5 c f hc (Nat.zero_le _) hf, Nat.sub_zero]

theorem sessionInput_append [Zero S] (fromInput : Bool) (mc : Nat) (ks : List (Call S P C)) (k : Call S P C) :
    sessionInput fromInput mc (ks ++ [k]) = followed (framesIn ks) (sessionInput fromInput mc ks)
      (followed k.output.frameCount (callInput fromInput mc k.input) silence) := by
  induction ks with
  | nil => funext c f; simp [sessionInput, followed, framesIn, callInput]
  | cons a ks ih =>
    rw [List.cons_append, sessionInput, ih, sessionInput]
    funext c f
    have : framesIn (a :: ks) = a.output.frameCount + framesIn ks := by simp [framesIn]
    rw [this]
    simp only [followed]
    by_cases h : f < a.output.frameCount
    · have h2 : f < a.output.frameCount + framesIn ks := by omega
      simp only [if_pos h, if_pos h2]
    · simp only [if_neg h]
      by_cases h2 : f < a.output.frameCount + framesIn ks
      · have h3 : f - a.output.frameCount < framesIn ks := by omega
        simp only [if_pos h2, if_pos h3]
      · have h3 : ¬ f - a.output.frameCount < framesIn ks := by omega
        simp only [if_neg h2, if_neg h3, Nat.sub_sub]

/-- Nodes only look at the frames of the blocks. -/
theorem chainBlock_congr [Zero S] {ops : NodeOps S P C} {sr : Nat} {t : Int} {n : Nat} {ds : List (Dsp P)}
    (hne : ds ≠ []) {x y : Nat → Nat → S} (h : ∀ c f, f < n → x c f = y c f) :
    chainBlock ops sr t n ds x = chainBlock ops sr t n ds y := by
  obtain ⟨d, ds, rfl⟩ := List.exists_cons_of_ne_nil hne
  have : window d.inputCount n x = window d.inputCount n y := by
    funext c f
    unfold window
    split
    · rename_i hc; rw [h c f hc.2]
    · rfl
  rw [chainBlock, chainBlock, this]

theorem chainBlock_ne [Zero S] {ops : NodeOps S P C} {sr : Nat} {t : Int} {n : Nat} {ds : List (Dsp P)}
    (hne : ds ≠ []) {x : Nat → Nat → S} {q : (Nat → Nat → S) × List (Dsp P)}
    (h : chainBlock ops sr t n ds x = .ok q) : q.2 ≠ [] := by
  obtain ⟨d, ds, rfl⟩ := List.exists_cons_of_ne_nil hne
  rw [chainBlock] at h
  cases h1 : ops.run d.state ⟨n, sr, t, window d.inputCount n x, window d.outputCount n silence⟩ with
  | error e => rw [h1] at h; cases h
  | ok r =>
    rw [h1] at h
    simp only [bind, Except.bind] at h
    cases h2 : chainBlock ops sr t n ds (clip d.outputCount n r.1) with
    | error e => rw [h2] at h; cases h
    | ok u => rw [h2] at h; cases h; simp

theorem chainChange_ne {ops : NodeOps S P C} {i : Id} {c : C} {ds ds' : List (Dsp P)} (hne : ds ≠ [])
    (h : chainChange ops i c ds = .ok ds') : ds' ≠ [] := by
  obtain ⟨d, ds, rfl⟩ := List.exists_cons_of_ne_nil hne
  rw [chainChange, List.mapM_cons] at h
  rintro rfl
  simp only [bind, Except.bind] at h
  split at h
  · cases h
  · split at h
    · cases h
    · cases h

theorem chainRun_congr [Zero S] {ops : NodeOps S P C} {sr : Nat} (es : List (ChainEvent C)) :
    ∀ {ds : List (Dsp P)}, ds ≠ [] → ∀ {x y : Nat → Nat → S},
    (∀ c f, f < ChainEvent.total es → x c f = y c f) → chainRun ops sr ds es x = chainRun ops sr ds es y := by
  induction es with
  | nil => intro ds _ x y _; rfl
  | cons e es ih =>
    intro ds hne x y h
    cases e with
    | change i c =>
      rw [chainRun, chainRun]
      cases h1 : chainChange ops i c ds with
      | error e => rfl
      | ok ds' =>
        simp only [bind, Except.bind]
        apply ih (chainChange_ne hne h1)
        intro c f hf
        apply h
        simpa [ChainEvent.total, ChainEvent.frames] using hf
    | block t n =>
      have ht : ChainEvent.total (.block t n :: es) = n + ChainEvent.total es := by
        simp [ChainEvent.total, ChainEvent.frames]
      rw [ht] at h
      rw [chainRun, chainRun, chainBlock_congr hne (y := y) (fun c f hf => h c f (by omega))]
      cases h1 : chainBlock ops sr t n ds y with
      | error e => rfl
      | ok q =>
        simp only [bind, Except.bind]
        rw [ih (chainBlock_ne hne h1) (x := later n x) (y := later n y)]
        intro c f hf
        exact h c (n + f) (by omega)

theorem history_total {full sr : Nat} {changes : Nat → List (Id × C)} {ks : List (Call S P C)}
    {es : List (ChainEvent C)} (h : ChainHistory full sr changes ks es) : ChainEvent.total es = framesIn ks := by
  induction h with
  | nil => rfl
  | @snoc ks es k blocks _ hb ih =>
    have happ : ∀ as bs : List (ChainEvent C), ChainEvent.total (as ++ bs) = ChainEvent.total as + ChainEvent.total bs := by
      intro as bs; simp [ChainEvent.total]
    have hch : ∀ cs : List (Id × C), ChainEvent.total (cs.map fun x => (.change x.1 x.2 : ChainEvent C)) = 0 := by
      intro cs
      induction cs with
      | nil => rfl
      | cons c cs ih => simpa [ChainEvent.total, ChainEvent.frames] using ih
    rw [happ, happ, ih, hch, blocks_total hb, Gain.framesIn_append, Nat.add_zero]

/-- The history of one more call, and what comes out. -/
theorem run_snoc [Zero S] {ops : NodeOps S P C} {fromInput : Bool} {mc sr : Nat} {ds0 ds ds' : List (Dsp P)}
    (hne0 : ds0 ≠ []) (hne : ds ≠ []) {ks : List (Call S P C)} {es fs : List (ChainEvent C)} {k : Call S P C}
    {x y : Nat → Nat → S} (hes : ChainEvent.total es = framesIn ks) (hfs : ChainEvent.total fs = k.output.frameCount)
    (h1 : chainRun ops sr ds0 es (sessionInput fromInput mc ks) = .ok (x, ds))
    (h2 : chainRun ops sr ds fs (callInput fromInput mc k.input) = .ok (y, ds')) :
    chainRun ops sr ds0 (es ++ fs) (sessionInput fromInput mc (ks ++ [k])) = .ok (followed (framesIn ks) x y, ds') := by
  rw [chainRun_append, chainRun_congr es hne0 (y := sessionInput fromInput mc ks), h1]
  · simp only [bind, Except.bind]
    rw [chainRun_congr fs hne (y := callInput fromInput mc k.input), h2, hes]
    · rfl
    · intro c f hf
      rw [sessionInput_append, hes]
      simp only [later, followed]
      rw [if_neg (by omega), Nat.add_sub_cancel_left, if_pos (by omega)]
  · intro c f hf
    rw [sessionInput_append, followed, if_pos (by omega)]

/-- The whole session. -/
theorem session_stream [Zero S] [Add S] {ops : NodeOps S P C} {fromInput : Bool} {mf mc sr : Nat} (hm : 0 < mf)
    {ds0 : List (Dsp P)} (hne0 : ds0 ≠ []) {changes : Nat → List (Id × C)} {ks : List (Call S P C)} {V : View P}
    (hs : View.Session ops mf mc sr ks V) : PlaysChain fromInput ds0 changes ks →
    ∃ es y ds, ds ≠ [] ∧ ChainHistory mf sr changes ks es ∧
      chainRun ops sr ds0 es (sessionInput fromInput mc ks) = .ok (y, ds) ∧
      if ks.length = 0 then V = View.empty ∧ ds = ds0 else Playing fromInput ds (framesIn ks) V := by
  induction hs with
  | nil => intro _; exact ⟨[], silence, ds0, hne0, .nil, rfl, by simp⟩
  | @snoc ks V W k out hs hc ih =>
    intro hp
    obtain ⟨es, y, ds, hne, h1, h2, h3⟩ := ih (fun i k' hk' => hp i k' (by
      rw [List.getElem?_append_left (by by_contra hn; rw [List.getElem?_eq_none (by omega)] at hk'; cases hk')]
      exact hk'))
    have hV : if (ks.length == 0) = true then V = View.empty ∧ ds = ds0 ∧ framesIn ks = 0
        else Playing fromInput ds (framesIn ks) V := by
      by_cases h0 : ks.length = 0
      · rw [if_pos h0] at h3
        obtain rfl := List.length_eq_zero_iff.mp h0
        rw [if_pos (by simp)]
        exact ⟨h3.1, h3.2, rfl⟩
      · rw [if_neg h0] at h3
        rwa [if_neg (by simpa using h0)]
    obtain ⟨bs, b1, z, ds', b2, b3, b4, _⟩ := step_stream hm hne hV (cs := changes ks.length)
      (by simpa [ApiCall.command] using hp ks.length k (by simp)) hc
    have hH := ChainHistory.snoc k bs h1 b1
    rw [List.append_assoc] at hH
    refine ⟨_, _, ds', b2, hH, run_snoc hne0 hne (history_total h1) ?_ h2 b3, ?_⟩
    · have := history_total hH
      rw [Gain.framesIn_append] at this
      have h4 := history_total h1
      simp only [ChainEvent.total, List.map_append, List.sum_append] at *
      omega
    · rw [if_neg (by simp), Gain.framesIn_append]
      exact b4

end Chain
end Rawdio
