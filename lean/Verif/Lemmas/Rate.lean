import Verif.Spec.Rate
/-!
# Invariants of the nodes and the sample rate
-/

set_option linter.unusedSectionVars false

namespace HexoDSP.RateLemmas
open HexoDSP.Rate HexoDSP.RateSpec

variable {N R : Type} [DecidableEq N]

/-- The number of nodes whose creation has ended. -/
def done (w : World N R) : Nat := if w.creating.isSome then w.count - 1 else w.count

def MsgOK (d : Nat) : Msg → Prop
  | .prog l => ∀ h ∈ l, h < d
  | .other => True

structure Inv (w : World N R) : Prop where
  nodes : ∀ e ∈ w.nodes, e.2 < done w
  queue : ∀ m ∈ w.queue, MsgOK (done w) m
  playing : ∀ h ∈ w.playing, h < done w
  some : w.creating.isSome = true → 0 < w.count

theorem inv_new (r : R) : Inv (World.new r : World N R) :=
  ⟨fun _ h => (nomatch h), fun _ h => (nomatch h), fun _ h => (nomatch h), fun h => (nomatch h)⟩

theorem MsgOK.mono {d d' : Nat} (h : d ≤ d') : ∀ {m : Msg}, MsgOK d m → MsgOK d' m
  | .prog _, hm => fun k hk => Nat.lt_of_lt_of_le (hm k hk) h
  | .other, _ => trivial

theorem send_eq (w : World N R) (m : Msg) : w.send m = { w with queue := (w.send m).queue } := by
  unfold World.send; split <;> rfl

theorem send_queue (w : World N R) (m : Msg) : ∀ x ∈ (w.send m).queue, x ∈ w.queue ∨ x = m := by
  unfold World.send
  split
  · intro x hx
    rcases List.mem_append.1 hx with h | h
    · exact .inl h
    · exact .inr (by simpa using h)
  · exact fun x hx => .inl hx

theorem inv_send {w : World N R} (h : Inv w) {m : Msg} (hm : MsgOK (done w) m) : Inv (w.send m) := by
  have hd : done (w.send m) = done w := by rw [send_eq]; rfl
  refine ⟨?_, ?_, ?_, ?_⟩
  · rw [hd]; rw [send_eq]; exact h.nodes
  · rw [hd]
    intro x hx
    rcases send_queue w m x hx with hx | rfl
    · exact h.queue x hx
    · exact hm
  · rw [hd]; rw [send_eq]; exact h.playing
  · rw [send_eq]; exact h.some

theorem nodeById_lt {w : World N R} (h : Inv w) {n : N} {r : Nat × Handle} (e : w.nodeById n = some r) : r.2 < done w := by
  unfold World.nodeById at e
  obtain ⟨i, _, e⟩ := Option.bind_eq_some_iff.1 e
  obtain ⟨x, hx, rfl⟩ := Option.map_eq_some_iff.1 e
  exact h.nodes x (List.mem_of_getElem? hx)

theorem prog_lt {w : World N R} (h : Inv w) : ∀ (order : List N) (prog : List (Nat × Handle)), (∀ o ∈ prog, o.2 < done w) →
    ∀ o ∈ order.foldl w.addProgNode prog, o.2 < done w
  | [], _, hp => hp
  | n :: order, prog, hp => by
    refine prog_lt h order _ ?_
    unfold World.addProgNode
    split
    · exact hp
    · next i k e =>
      split
      · exact hp
      · intro o ho
        rcases List.mem_append.1 ho with ho | ho
        · exact hp o ho
        · rw [List.mem_singleton.1 ho]; exact (nodeById_lt h e : (i, k).2 < _)

theorem receive_lt {d : Nat} : ∀ (q : List Msg) (pl : List Handle), (∀ m ∈ q, MsgOK d m) → (∀ h ∈ pl, h < d) → ∀ h ∈ q.foldl receive pl, h < d
  | [], _, _, hp => hp
  | m :: q, pl, hq, hp => by
    refine receive_lt q _ (fun x hx => hq x (List.mem_cons_of_mem _ hx)) ?_
    have hm := hq m (List.mem_cons_self ..)
    cases m with
    | prog l => exact hm
    | other => exact hp

theorem inv_step {w w' : World N R} (h : Inv w) {o : Op N R} (e : w.step o = some w') : Inv w' := by
  cases o with
  | beginCreate n =>
    simp only [World.step] at e
    cases hc : w.creating with
    | some x => rw [hc] at e; exact nomatch e
    | none =>
      rw [hc] at e
      injection e with e
      have hd : done w' = done w := by rw [← e]; simp [done, hc]
      refine ⟨?_, ?_, ?_, ?_⟩
      · rw [hd, ← e]; exact h.nodes
      · rw [hd, ← e]; exact h.queue
      · rw [hd, ← e]; exact h.playing
      · rw [← e]; exact fun _ => Nat.succ_pos _
  | endCreate =>
    simp only [World.step] at e
    cases hc : w.creating with
    | none => rw [hc] at e; exact nomatch e
    | some x =>
      rw [hc] at e
      injection e with e
      have h0 : 0 < w.count := h.some (by rw [hc]; rfl)
      have hd : done w' = w.count := by rw [← e]; simp [done]
      have hd0 : done w = w.count - 1 := by simp [done, hc]
      have hle : done w ≤ w.count := by omega
      refine ⟨?_, ?_, ?_, ?_⟩
      · rw [hd, ← e]
        intro y hy
        rcases List.mem_append.1 hy with hy | hy
        · exact Nat.lt_of_lt_of_le (h.nodes y hy) hle
        · rw [List.mem_singleton.1 hy]; show w.count - 1 < w.count; omega
      · rw [hd, ← e]; exact fun m hm => (h.queue m hm).mono hle
      · rw [hd, ← e]; exact fun k hk => Nat.lt_of_lt_of_le (h.playing k hk) hle
      · rw [← e]; exact fun hx => (nomatch hx)
  | deleteNodes =>
    simp only [World.step] at e
    cases hc : w.creating with
    | some x => rw [hc] at e; exact nomatch e
    | none =>
      rw [hc] at e
      injection e with e
      rw [← e, ← hc]
      apply inv_send
      · exact ⟨fun _ hx => (nomatch hx), h.queue, h.playing, h.some⟩
      · exact fun _ hx => (nomatch hx)
  | upload order =>
    simp only [World.step] at e
    cases hc : w.creating with
    | some x => rw [hc] at e; exact nomatch e
    | none =>
      rw [hc] at e
      injection e with e
      rw [← e]
      apply inv_send h
      intro k hk
      obtain ⟨o, ho, rfl⟩ := List.mem_map.1 hk
      exact prog_lt h order [] (fun _ hx => (nomatch hx)) o ho
  | message =>
    simp only [World.step] at e
    cases hc : w.creating with
    | some x => rw [hc] at e; exact nomatch e
    | none =>
      rw [hc] at e
      injection e with e
      rw [← e]
      exact inv_send h trivial
  | poll =>
    injection e with e
    rw [← e]
    exact ⟨h.nodes, fun _ hx => (nomatch hx), receive_lt w.queue w.playing h.queue h.playing, h.some⟩
  | setSampleRate r =>
    injection e with e
    rw [← e]
    exact ⟨h.nodes, h.queue, h.playing, h.some⟩

theorem inv_run : ∀ (ops : List (Op N R)) {w w' : World N R}, Inv w → w.run ops = some w' → Inv w'
  | [], w, w', h, e => by
    have e : some w = some w' := e
    injection e with e; rw [← e]; exact h
  | o :: ops, w, w', h, e => by
    rw [World.run, List.foldlM_cons] at e
    cases hs : w.step o with
    | none => rw [hs] at e; exact nomatch e
    | some v => rw [hs] at e; exact inv_run ops (inv_step h hs) e

/-- `p` knows the sample rate, or is about to be told, or is not there. -/
structure Fine (p : Nat) (w : World N R) : Prop where
  told : p < done w → w.told p = some w.rate
  soon : ∀ x, w.creating = some x → p = done w → x.2 = w.rate

theorem fine_send {w : World N R} {p : Nat} (h : Fine p w) (m : Msg) : Fine p (w.send m) := by
  rw [send_eq]; exact ⟨h.told, h.soon⟩

theorem fine_step {w w' : World N R} {p : Nat} (hi : Inv w) (h : Fine p w) {o : Op N R} (e : w.step o = some w')
    (ha : ∀ r, o = .setSampleRate r → Born w p → p ∈ w.playing) : Fine p w' := by
  cases o with
  | beginCreate n =>
    simp only [World.step] at e
    cases hc : w.creating with
    | some x => rw [hc] at e; exact nomatch e
    | none =>
      rw [hc] at e
      injection e with e
      have hd : done w' = done w := by rw [← e]; simp [done, hc]
      refine ⟨?_, ?_⟩
      · rw [hd, ← e]; exact h.told
      · rw [← e]
        intro x hx _
        injection hx with hx
        rw [← hx]
  | endCreate =>
    simp only [World.step] at e
    cases hc : w.creating with
    | none => rw [hc] at e; exact nomatch e
    | some x =>
      rw [hc] at e
      injection e with e
      have h0 : 0 < w.count := hi.some (by rw [hc]; rfl)
      have hd : done w' = w.count := by rw [← e]; simp [done]
      have hd0 : done w = w.count - 1 := by simp [done, hc]
      refine ⟨?_, ?_⟩
      · rw [hd, ← e]
        intro hp
        by_cases hq : p = w.count - 1
        · simp only [hq, if_true]
          rw [h.soon x hc (by omega)]
        · simp only [hq, if_false]
          exact h.told (by omega)
      · rw [← e]; exact fun y hy => (nomatch hy)
  | deleteNodes =>
    simp only [World.step] at e
    cases hc : w.creating with
    | some x => rw [hc] at e; exact nomatch e
    | none =>
      rw [hc] at e
      injection e with e
      rw [← e, ← hc]
      exact fine_send (w := { w with nodes := [], node2idx := [] }) ⟨h.told, h.soon⟩ _
  | upload order =>
    simp only [World.step] at e
    cases hc : w.creating with
    | some x => rw [hc] at e; exact nomatch e
    | none =>
      rw [hc] at e
      injection e with e
      rw [← e]
      exact fine_send h _
  | message =>
    simp only [World.step] at e
    cases hc : w.creating with
    | some x => rw [hc] at e; exact nomatch e
    | none =>
      rw [hc] at e
      injection e with e
      rw [← e]
      exact fine_send h _
  | poll =>
    injection e with e
    rw [← e]
    exact ⟨h.told, h.soon⟩
  | setSampleRate r =>
    injection e with e
    have hd : done w ≤ w.count := by unfold done; split <;> omega
    rw [← e]
    refine ⟨?_, ?_⟩
    · intro hp
      have : p ∈ w.playing := ha r rfl (Nat.lt_of_lt_of_le hp hd)
      simp only [this, if_true]
    · intro x hx hp
      have hx : w.creating = some x := hx
      have hp : p = done w := hp
      have h0 : 0 < w.count := hi.some (by rw [hx]; rfl)
      have hd0 : done w = w.count - 1 := by simp [done, hx]
      have hm : p ∈ w.playing := ha r rfl (by show p < w.count; omega)
      have : p < done w := hi.playing p hm
      omega

theorem fine_run (p : Nat) : ∀ (ops : List (Op N R)) {w w' : World N R}, Inv w → Fine p w → w.run ops = some w' → Attends p w ops → Fine p w'
  | [], w, w', _, h, e, _ => by
    have e : some w = some w' := e
    injection e with e; rw [← e]; exact h
  | o :: ops, w, w', hi, h, e, ha => by
    rw [World.run, List.foldlM_cons] at e
    cases hs : w.step o with
    | none => rw [hs] at e; exact nomatch e
    | some v =>
      rw [hs] at e
      refine fine_run p ops (inv_step hi hs) (fine_step hi h hs ?_) e ?_
      · intro r hr hb
        exact ha [] r ops w (by rw [hr]; rfl) rfl hb
      · intro pre r post u hpre hu hb
        refine ha (o :: pre) r post u (by rw [hpre]; rfl) ?_ hb
        rw [World.run, List.foldlM_cons, hs]
        exact hu

theorem done_le (w : World N R) : done w ≤ w.count := by unfold done; split <;> omega

theorem fine_unborn {w : World N R} {p : Nat} (hi : Inv w) (h : ¬ Born w p) : Fine p w := by
  have h : ¬ p < w.count := h
  refine ⟨fun hp => absurd (Nat.lt_of_lt_of_le hp (done_le w)) h, ?_⟩
  intro x hx hp
  have h0 : 0 < w.count := hi.some (by rw [hx]; rfl)
  have hd0 : done w = w.count - 1 := by simp [done, hx]
  omega

end HexoDSP.RateLemmas
