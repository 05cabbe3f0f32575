import Verif.Spec.Code
import Verif.Props.BlockCompile
import Verif.Props.BlockOps
/-! # Lemmas about block programs on their way to the nodes -/

set_option linter.unusedSectionVars false
set_option linter.dupNamespace false

namespace HexoDSP.Code
open HexoDSP.Block HexoDSP.BlockProps HexoDSP.BlockCompileProps

variable {F : Type}

/-! ## Areas with the same blocks -/

theorem same_mem {a a' : Area} (h : AreaOk a) (h' : AreaOk a') (hs : ∀ q, a.blocks.lookup q = a'.blocks.lookup q) (e : Pos × Block) :
    e ∈ a.blocks ↔ e ∈ a'.blocks := by
  obtain ⟨o, b⟩ := e
  rw [mem_iff_lookup h.load.keys, mem_iff_lookup h'.load.keys, hs]

theorem keysNodup_nodup {l : Load} (h : KeysNodup l) : l.Nodup := List.Nodup.of_map _ h

theorem same_perm {a a' : Area} (h : AreaOk a) (h' : AreaOk a') (hs : ∀ q, a.blocks.lookup q = a'.blocks.lookup q) :
    a.blocks.Perm a'.blocks :=
  (List.perm_ext_iff_of_nodup (keysNodup_nodup h.load.keys) (keysNodup_nodup h'.load.keys)).2 (same_mem h h' hs)

theorem same_ref {a a' : Area} (h : AreaOk a) (h' : AreaOk a') (hs : ∀ q, a.blocks.lookup q = a'.blocks.lookup q) (p : Pos) :
    a.refAtOrigin p = a'.refAtOrigin p := by
  apply Option.ext
  rintro ⟨b, o⟩
  rw [h.refAt_some, h'.refAt_some, same_mem h h' hs]

theorem same_wire {a a' : Area} {S : Type} (h : AreaOk a) (h' : AreaOk a') (hs : ∀ q, a.blocks.lookup q = a'.blocks.lookup q) (z : F)
    (run : Pos → Run F S → (String → F) × Run F S) (p : Pos) (r : Run F S) : wireFrom a z run p r = wireFrom a' z run p r := by
  unfold wireFrom
  rw [same_ref h h' hs]

theorem same_wires {a a' : Area} {S : Type} (h : AreaOk a) (h' : AreaOk a') (hs : ∀ q, a.blocks.lookup q = a'.blocks.lookup q) (z : F)
    (run : Pos → Run F S → (String → F) × Run F S) (ps : List (String × Pos)) (r : Run F S) :
    wiresFrom a z run ps r = wiresFrom a' z run ps r := by
  induction ps generalizing r with
  | nil => rfl
  | cons p ps ih =>
    unfold wiresFrom
    simp only [same_wire h h' hs, ih]

theorem same_runAt {a a' : Area} {S : Type} {L : Lang} {parse : String → Option F} {M : Machine F S} (h : AreaOk a) (h' : AreaOk a')
    (hs : ∀ q, a.blocks.lookup q = a'.blocks.lookup q) (n : Nat) : runAt M L parse a n = runAt M L parse a' n := by
  induction n with
  | zero => funext o r; rfl
  | succ n ih =>
    funext o r
    unfold runAt
    rw [hs, ih]
    simp only [same_wires h h' hs]

theorem same_runSink {a a' : Area} {S : Type} {L : Lang} {parse : String → Option F} {M : Machine F S} (h : AreaOk a) (h' : AreaOk a')
    (hs : ∀ q, a.blocks.lookup q = a'.blocks.lookup q) (s : Sink) (r : Run F S) : runSink M L parse a s r = runSink M L parse a' s r := by
  unfold runSink
  rw [(same_perm h h' hs).length_eq, same_runAt h h' hs]
  simp only [same_wire h h' hs]

theorem same_runSinks {a a' : Area} {S : Type} {L : Lang} {parse : String → Option F} {M : Machine F S} (h : AreaOk a) (h' : AreaOk a')
    (hs : ∀ q, a.blocks.lookup q = a'.blocks.lookup q) (ss : List Sink) (r : Run F S) :
    runSinks M L parse a ss r = runSinks M L parse a' ss r := by
  unfold runSinks
  congr 1
  funext r s
  exact same_runSink h h' hs s r

theorem same_sinks {a a' : Area} (h : AreaOk a) (h' : AreaOk a') (hs : ∀ q, a.blocks.lookup q = a'.blocks.lookup q) (ss : List Sink) :
    a.SinkOrder ss ↔ a'.SinkOrder ss := by
  have : ∀ s, a.HasSink s ↔ a'.HasSink s := by
    intro s
    unfold Area.HasSink
    simp only [same_mem h h' hs]
  unfold Area.SinkOrder
  simp only [this]

theorem same_means {a a' : Area} {L : Lang} {parse : String → Option F} {zero : F} {prog : Jit F} (h : AreaOk a) (h' : AreaOk a')
    (hs : ∀ q, a.blocks.lookup q = a'.blocks.lookup q) (hm : Means L parse zero prog a) : Means L parse zero prog a' := by
  intro S M ss vars mem hz hd hss
  have := hm S M ss vars mem hz hd ((same_sinks h h' hs ss).2 hss)
  rw [same_runSinks h h' hs] at this
  exact this

/-! ## What is kept -/

/-- The last program sent is that of a diagram with the same blocks, if the generation is the same; or none was sent and there are none. -/
def Kept (s : Setup F) (e : Engine F) (gen : Nat) (w : World) : Prop :=
  Reached (language s.lib) w ∧ gen ≤ w.fn.generation ∧
  ((∃ w0 p, Reached (language s.lib) w0 ∧ compile (language s.lib) s.parse s.zero s.fuel w0.fn = .ok p ∧ e.plays e.conn = some p ∧
      (gen = w.fn.generation → ∀ j q, w.fn.blockAt j q = w0.fn.blockAt j q)) ∨
   (gen = 0 ∧ e.plays e.conn = none ∧ (w.fn.generation = 0 → ∀ j q, w.fn.blockAt j q = none)))

/-- For one node. -/
def Inv (s : Setup F) (g : Global F) (id : Nat) : Prop :=
  match g.funs id with
  | none => ∀ e, g.engines id = some e → e.sent = []
  | some (gen, w) => ∃ e, g.engines id = some e ∧ Kept s e gen w

theorem new_blocks (j : Nat) (q : Pos) : World.new.fn.blockAt j q = none := by
  unfold BlockFun.blockAt World.new BlockFun.new
  cases j with
  | zero => rfl
  | succ j => rfl

/-- A call for another node does not touch this one. -/
theorem step_other {s : Setup F} {g g' : Global F} {c : Call} {a : Answer} {id : Nat} (h : g.step s c = some (g', a))
    (hc : c ≠ .getFun id ∧ c ≠ .backend id ∧ (∀ op, c ≠ .edit id op) ∧ c ≠ .check id) :
    g'.engines id = g.engines id ∧ g'.funs id = g.funs id := by
  obtain ⟨h1, h2, h3, h4⟩ := hc
  have hwe : ∀ k, k ≠ id → (g.withEngine k).engines id = g.engines id ∧ (g.withEngine k).funs id = g.funs id := by
    intro k hk
    unfold Global.withEngine
    cases g.engines k with
    | some e => exact ⟨rfl, rfl⟩
    | none => exact ⟨if_neg (fun hh => hk hh.symm), rfl⟩
  cases c with
  | getFun k =>
    have hk : k ≠ id := fun hh => h1 (by rw [hh])
    simp only [Global.step, Option.some.injEq, Prod.mk.injEq] at h
    obtain ⟨rfl, -⟩ := h
    unfold Global.getFun
    simp only
    cases (g.withEngine k).funs k with
    | some e => exact hwe k hk
    | none => exact ⟨(hwe k hk).1, (if_neg (fun hh => hk hh.symm)).trans (hwe k hk).2⟩
  | backend k =>
    have hk : k ≠ id := fun hh => h2 (by rw [hh])
    simp only [Global.step, Option.some.injEq, Prod.mk.injEq] at h
    obtain ⟨rfl, -⟩ := h
    unfold Global.backend
    simp only
    cases (g.withEngine k).engines k with
    | none => exact hwe k hk
    | some e => exact ⟨(if_neg (fun hh => hk hh.symm)).trans (hwe k hk).1, (hwe k hk).2⟩
  | edit k op =>
    have hk : k ≠ id := fun hh => h3 op (by rw [hh])
    simp only [Global.step] at h
    cases hf : g.funs k with
    | none => rw [hf] at h; cases h; exact ⟨rfl, rfl⟩
    | some p =>
      rw [hf] at h
      simp only [Option.map_eq_some_iff, Prod.mk.injEq] at h
      obtain ⟨r, -, rfl, -⟩ := h
      exact ⟨rfl, if_neg (fun hh => hk hh.symm)⟩
  | check k =>
    have hk : k ≠ id := fun hh => h4 (by rw [hh])
    have hk' : ¬ id = k := fun hh => hk hh.symm
    simp only [Global.step, Global.check] at h
    cases he : g.engines k with
    | none => rw [he] at h; cases h; exact ⟨rfl, rfl⟩
    | some e =>
      rw [he] at h
      simp only at h
      cases hf : g.funs k with
      | none => rw [hf] at h; cases h; exact ⟨rfl, rfl⟩
      | some p =>
        obtain ⟨gen, w⟩ := p
        rw [hf] at h
        simp only at h
        by_cases hg : gen ≠ w.fn.generation
        · rw [if_pos hg] at h
          cases hcm : compile (language s.lib) s.parse s.zero s.fuel w.fn with
          | error err =>
            rw [hcm] at h
            cases err <;> first | (cases h; exact ⟨rfl, if_neg hk'⟩) | cases h
          | ok p =>
            rw [hcm] at h
            simp only at h
            cases hu : e.upload s.accept p with
            | none => rw [hu] at h; cases h; exact ⟨rfl, if_neg hk'⟩
            | some e2 => rw [hu] at h; cases h; exact ⟨if_neg hk', if_neg hk'⟩
        · rw [if_neg hg] at h; cases h; exact ⟨rfl, rfl⟩

theorem inv_congr {s : Setup F} {g g' : Global F} {id : Nat} (h : Inv s g id) (h1 : g'.engines id = g.engines id) (h2 : g'.funs id = g.funs id) :
    Inv s g' id := by
  unfold Inv at h ⊢
  rw [h1, h2]
  exact h

/-- The engine is made when it is needed. -/
theorem inv_withEngine {s : Setup F} {g : Global F} {id : Nat} (h : Inv s g id) :
    Inv s (g.withEngine id) id ∧ (∃ e, (g.withEngine id).engines id = some e ∧ (g.engines id = some e ∨ (g.engines id = none ∧ e = Engine.new))) ∧
    (g.withEngine id).funs = g.funs := by
  unfold Global.withEngine
  cases he : g.engines id with
  | some e => exact ⟨h, ⟨e, he, .inl rfl⟩, rfl⟩
  | none =>
    refine ⟨?_, ⟨Engine.new, if_pos rfl, .inr ⟨rfl, rfl⟩⟩, rfl⟩
    unfold Inv at h ⊢
    simp only
    cases hf : g.funs id with
    | none =>
      intro e h2
      have h3 : put g.engines id Engine.new id = some Engine.new := if_pos rfl
      rw [h3] at h2
      cases h2
      rfl
    | some p =>
      rw [hf] at h
      simp only at h
      obtain ⟨e, h1, -⟩ := h
      rw [he] at h1
      cases h1

theorem kept_edit {s : Setup F} (hp : ∀ n ∈ s.lib, n.inputs ≠ [] ∨ n.outputs ≠ []) {e : Engine F} {gen : Nat} {w w' : World} (h : Kept s e gen w)
    {op : Op} {r : Except Err Unit} (hs : w.step (language s.lib) op = some (w', r)) (hpr : w.Proper (language s.lib) op)
    (hmv : ∀ j p j2 p2, op = .move j p j2 p2 → j2 < w.fn.areas.length) (hrt : ∀ j p, op ≠ .retrieve j p true) : Kept s e gen w' := by
  obtain ⟨hr, hg, hk⟩ := h
  have hn := changes_noticed_partial (language_tall s.lib hp) hr hpr hs hmv hrt
  refine ⟨.step hr hpr hs, by omega, ?_⟩
  rcases hk with ⟨w0, p, h1, h2, h3, h4⟩ | ⟨h1, h2, h3⟩
  · refine .inl ⟨w0, p, h1, h2, h3, ?_⟩
    intro hge j q
    rcases hn with hn | ⟨hn, hb⟩
    · omega
    · rw [hb, h4 (by omega)]
  · refine .inr ⟨h1, h2, ?_⟩
    intro h0 j q
    rcases hn with hn | ⟨hn, hb⟩
    · omega
    · rw [hb, h3 (by omega)]

theorem check_synced {s : Setup F} {g g' : Global F} {id : Nat} (h : Inv s g id) (hs : g.check s id = some (g', .ok)) :
    Inv s g' id ∧ ∀ gen w, g'.funs id = some (gen, w) → gen = w.fn.generation := by
  unfold Inv at h
  unfold Global.check at hs
  cases he : g.engines id with
  | none =>
    rw [he] at hs
    cases hs
    cases hf : g.funs id with
    | none => exact ⟨(by unfold Inv; rw [hf]; intro e h1; rw [he] at h1; cases h1), fun gen w h2 => (by cases h2)⟩
    | some p =>
      rw [hf] at h
      simp only at h
      obtain ⟨e, h1, -⟩ := h
      rw [he] at h1
      cases h1
  | some e =>
    rw [he] at hs
    simp only at hs
    cases hf : g.funs id with
    | none =>
      rw [hf] at hs h
      cases hs
      exact ⟨by unfold Inv; rw [hf]; exact h, fun gen w h2 => by rw [hf] at h2; cases h2⟩
    | some p =>
      obtain ⟨gen, w⟩ := p
      rw [hf] at hs h
      simp only at hs h
      obtain ⟨e', h1, hk⟩ := h
      rw [he] at h1
      cases h1
      by_cases hg : gen ≠ w.fn.generation
      · rw [if_pos hg] at hs
        cases hcm : compile (language s.lib) s.parse s.zero s.fuel w.fn with
        | error err =>
          rw [hcm] at hs
          cases err <;> cases hs
        | ok p =>
          rw [hcm] at hs
          simp only at hs
          cases hu : e.upload s.accept p with
          | none => rw [hu] at hs; cases hs
          | some e2 =>
            rw [hu] at hs
            cases hs
            have h2 : put g.funs id (w.fn.generation, w) id = some (w.fn.generation, w) := if_pos rfl
            refine ⟨?_, ?_⟩
            · unfold Inv
              simp only
              rw [h2]
              refine ⟨e2, if_pos rfl, hk.1, Nat.le_refl _, .inl ⟨w, p, hk.1, hcm, ?_, fun _ _ _ => rfl⟩⟩
              unfold Engine.upload at hu
              by_cases ha : s.accept p = true
              · rw [if_pos ha] at hu
                cases hu
                unfold Engine.plays
                simp
              · rw [if_neg ha] at hu; cases hu
            · intro gen' w' h3
              simp only at h3
              rw [h2] at h3
              cases h3
              rfl
      · rw [if_neg hg] at hs
        cases hs
        refine ⟨?_, ?_⟩
        · unfold Inv
          rw [hf]
          exact ⟨e, he, hk⟩
        · intro gen' w' h3
          rw [hf] at h3
          cases h3
          exact not_not.1 hg

theorem smooth_inv {s : Setup F} (hp : ∀ n ∈ s.lib, n.inputs ≠ [] ∨ n.outputs ≠ []) {g : Global F} {id : Nat} (h : Smooth s id g) : Inv s g id := by
  induction h with
  | new => intro e he; cases he
  | @step g g' c a hg hs hed hb hck ih =>
    by_cases hc : c ≠ .getFun id ∧ c ≠ .backend id ∧ (∀ op, c ≠ .edit id op) ∧ c ≠ .check id
    · obtain ⟨h1, h2⟩ := step_other hs hc
      exact inv_congr ih h1 h2
    · have : c = .getFun id ∨ c = .backend id ∨ (∃ op, c = .edit id op) ∨ c = .check id := by
        by_contra hcon
        apply hc
        refine ⟨fun h => hcon (.inl h), fun h => hcon (.inr (.inl h)), fun op h => hcon (.inr (.inr (.inl ⟨op, h⟩))),
          fun h => hcon (.inr (.inr (.inr h)))⟩
      rcases this with rfl | rfl | ⟨op, rfl⟩ | rfl
      · simp only [Global.step, Option.some.injEq, Prod.mk.injEq] at hs
        obtain ⟨rfl, -⟩ := hs
        obtain ⟨h1, ⟨e, h2, h3⟩, h4⟩ := inv_withEngine ih
        unfold Global.getFun
        simp only
        cases hf : (g.withEngine id).funs id with
        | some p => exact h1
        | none =>
          unfold Inv at h1 ⊢
          rw [hf] at h1
          simp only at h1 ⊢
          have h5 : put (g.withEngine id).funs id (0, World.new) id = some (0, World.new) := if_pos rfl
          rw [h5]
          refine ⟨e, h2, .new, Nat.zero_le _, .inr ⟨rfl, ?_, fun _ => new_blocks⟩⟩
          unfold Engine.plays
          rw [h1 e h2]
          rfl
      · simp only [Global.step, Option.some.injEq, Prod.mk.injEq] at hs
        obtain ⟨rfl, -⟩ := hs
        obtain ⟨h1, ⟨e, h2, h3⟩, h4⟩ := inv_withEngine ih
        unfold Global.backend
        simp only
        rw [h2]
        simp only
        have ht : e.taken = false := by
          rcases h3 with h3 | ⟨h3, rfl⟩
          · exact hb e rfl h3
          · rfl
        have hgb : e.getBackend.1 = ⟨e.conn, true, e.sent⟩ := by
          unfold Engine.getBackend
          rw [if_neg (by rw [ht]; decide)]
        have h5 : put (g.withEngine id).engines id e.getBackend.1 id = some ⟨e.conn, true, e.sent⟩ := by
          rw [hgb]; exact if_pos rfl
        unfold Inv at h1 ⊢
        simp only
        rw [h5]
        cases hf : (g.withEngine id).funs id with
        | none =>
          rw [hf] at h1
          intro e2 he2
          cases he2
          exact h1 e h2
        | some p =>
          rw [hf] at h1
          simp only at h1 ⊢
          obtain ⟨e2, he2, hk⟩ := h1
          rw [h2] at he2
          cases he2
          exact ⟨_, rfl, hk⟩
      · simp only [Global.step] at hs
        unfold Inv at ih
        cases hf : g.funs id with
        | none =>
          rw [hf] at hs ih
          cases hs
          unfold Inv
          rw [hf]
          exact ih
        | some p =>
          obtain ⟨gen, w⟩ := p
          rw [hf] at hs ih
          simp only [Option.map_eq_some_iff, Prod.mk.injEq] at hs ih
          obtain ⟨⟨w', r⟩, hr, rfl, -⟩ := hs
          obtain ⟨e, he, hk⟩ := ih
          obtain ⟨h1, h2, h3⟩ := hed op gen w rfl hf
          unfold Inv
          simp only
          have h5 : put g.funs id (gen, w') id = some (gen, w') := if_pos rfl
          rw [h5]
          exact ⟨e, he, kept_edit hp hk hr h1 h2 h3⟩
      · obtain rfl := hck rfl
        exact (check_synced ih hs).1

end HexoDSP.Code
