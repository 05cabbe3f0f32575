import Verif.Lemmas.Matrix

set_option linter.unusedSectionVars false
namespace HexoDSP.Matrix
open CellDir (Pos)
open GraphOrdering

variable {N : Type} [DecidableEq N]

theorem foldlM_inv {α β : Type} (P : β → Prop) (f : β → α → Option β)
    (h : ∀ b a b', P b → f b a = some b' → P b') (l : List α) (b b' : β) (hb : P b)
    (he : l.foldlM f b = some b') : P b' := by
  induction l generalizing b with
  | nil => simp at he; subst he; exact hb
  | cons a l ih =>
    simp only [List.foldlM_cons, Option.bind_eq_bind, Option.bind_eq_some_iff] at he
    obtain ⟨b1, h1, h2⟩ := he
    exact ih b1 (h b a b1 hb h1) h2

def Lens (o : Ordering N) : Prop := o.nodes.length = o.inDegree.length

theorem lens_addNode {o : Ordering N} (h : Lens o) (a : N) : Lens (o.addNode a).1 := by
  unfold Lens Ordering.addNode at *
  split
  · exact h
  · simp only [List.length_set]
    split <;> simp [h]

theorem lens_addEdge {o o' : Ordering N} (h : Lens o) {a b : N} (he : o.addEdge a b = some o') : Lens o' := by
  have h1 := lens_addNode h b
  unfold Ordering.addEdge at he
  simp only at he
  split at he
  · simp only [Option.some.injEq] at he; subst he; exact h1
  · split at he
    · simp at he
    · split at he
      · simp at he
      · simp only [Option.some.injEq] at he; subst he
        simpa [Lens] using h1

theorem len_kahn (nodes : List (Node N)) (n fuel : Nat) (deg deq : List Nat) (out : List N) (v : Nat) (deg' : List Nat)
    (out' : List N) (v' : Nat) (hd : deg.length = n) (he : kahnLoop nodes fuel deg deq out v = some (deg', out', v')) :
    deg'.length = n := by
  induction fuel generalizing deg deq out v with
  | zero =>
    cases deq with
    | nil => simp [kahnLoop] at he; rw [← he.1]; exact hd
    | cons i q => simp [kahnLoop] at he
  | succ fuel ih =>
    cases deq with
    | nil => simp [kahnLoop] at he; rw [← he.1]; exact hd
    | cons i q =>
      simp only [kahnLoop] at he
      split at he
      · simp at he
      · split at he
        · simp at he
        · split at he
          · simp at he
          · rename_i nd _ _ _ _ d1 q1 hf
            refine ih d1 q1 _ _ ?_ he
            refine foldlM_inv (fun s : List Nat × List Nat => s.1.length = n) relaxOne ?_ _ _ _ hd hf
            intro s j s' hs h
            unfold relaxOne at h
            split at h
            · simp only [Option.some.injEq] at h; subst h; simpa using hs
            · simp at h
            · simp at h

theorem lens_calc {o o' : Ordering N} (h : Lens o) {out out' : List N} {ok : Bool}
    (he : o.calculateOrder out = some (o', out', ok)) : Lens o' := by
  unfold Ordering.calculateOrder at he
  simp only at he
  split at he
  · simp at he
  · rename_i deg hdeg
    have hl : deg.length = o.nodes.length := by
      refine foldlM_inv (fun d : List Nat => d.length = o.nodes.length) _ ?_ _ _ _ ?_ hdeg
      · intro d nd d' hd hf
        refine foldlM_inv (fun d : List Nat => d.length = o.nodes.length) _ ?_ _ _ _ hd hf
        intro d j d' hd hf
        simp only [Option.map_eq_some_iff] at hf
        obtain ⟨x, _, rfl⟩ := hf
        simpa using hd
      · simp; exact h.symm
    split at he
    · simp at he
    · rename_i d1 o1 v1 hk
      have := len_kahn _ _ _ _ _ _ _ _ _ _ hl hk
      split at he <;> (simp only [Option.some.injEq, Prod.mk.injEq] at he; obtain ⟨rfl, _⟩ := he; exact this.symm)

theorem lens_update {m m' : Matrix N} (h : WF m) (he : m.updateGraph = some m') : WF m' ∧ SameGrid m m' ∧ m'.genCounter = m.genCounter := by
  unfold Matrix.updateGraph at he
  simp only [Option.map_eq_some_iff] at he
  obtain ⟨s, hs, rfl⟩ := he
  refine ⟨⟨h.len, ?_⟩, ⟨rfl, rfl, rfl, rfl⟩, rfl⟩
  refine foldlM_inv (fun s : Ordering N × List (Edge N) => Lens s.1) _ ?_ _ _ _ ?_ hs
  · have hadd : ∀ (n : N) inp out (s s' : Ordering N × List (Edge N)), Lens s.1 → addInput n inp out s = some s' → Lens s'.1 := by
      intro n inp out s s' hs hf
      unfold addInput at hf
      split at hf
      · simp only [Option.map_eq_some_iff] at hf
        obtain ⟨g, hg, rfl⟩ := hf
        exact lens_addEdge hs hg
      · simp only [Option.some.injEq] at hf; subst hf; exact hs
    intro s p s' hs hf
    unfold Matrix.scanCell at hf
    split at hf
    · simp at hf
    · split at hf
      · simp only [Option.some.injEq] at hf; subst hf; exact hs
      · simp only [Option.bind_eq_some_iff] at hf
        obtain ⟨s1, h1, s2, h2, h3⟩ := hf
        exact hadd _ _ _ _ _ (hadd _ _ _ _ _ (hadd _ _ _ _ _ (lens_addNode hs _) h1) h2) h3
  · exact h.graph

theorem wf_check {m m' : Matrix N} {r} (h : WF m) (he : m.check = some (m', r)) : WF m' ∧ SameGrid m m' ∧ m'.genCounter = m.genCounter := by
  unfold Matrix.check at he
  split at he
  · simp at he
  · rename_i m1 h1
    obtain ⟨w1, s1, g1⟩ := lens_update h h1
    split at he
    · simp only [Option.some.injEq, Prod.mk.injEq] at he; obtain ⟨rfl, _⟩ := he; exact ⟨w1, s1, g1⟩
    · split at he
      · simp at he
      · rename_i g _ _ hc
        have hl := lens_calc (o := m1.graph) w1.graph hc
        split at he <;>
          (simp only [Option.some.injEq, Prod.mk.injEq] at he; obtain ⟨rfl, _⟩ := he
           exact ⟨⟨w1.len, hl⟩, ⟨s1.cells, s1.w, s1.h, s1.saved⟩, g1⟩)

theorem wf_sync {m m' : Matrix N} {r} (h : WF m) (he : m.sync = some (m', r)) : WF m' ∧ SameGrid m m' := by
  unfold Matrix.sync at he
  split at he
  · simp at he
  · rename_i m1 h1
    obtain ⟨w1, s1, _⟩ := lens_update h h1
    split at he
    · simp at he
    · rename_i g _ _ hc
      have hl := lens_calc (o := m1.graph) w1.graph hc
      split at he <;>
        (simp only [Option.some.injEq, Prod.mk.injEq] at he; obtain ⟨rfl, _⟩ := he
         exact ⟨⟨w1.len, hl⟩, ⟨s1.cells, s1.w, s1.h, s1.saved⟩⟩)

/-- Invariant of the saved copy: it has the right size. -/
structure WFS (m : Matrix N) : Prop extends WF m where
  savedLen : ∀ c, m.saved = some c → c.length = m.w * m.h

theorem place_wh (m : Matrix N) (x y : Nat) (c : Cell N) : (m.place x y c).w = m.w ∧ (m.place x y c).h = m.h ∧
    (m.place x y c).saved = m.saved ∧ (m.place x y c).graph = m.graph ∧ (m.place x y c).edges = m.edges := by
  unfold Matrix.place; simp only; split <;> simp

theorem wfs_place {m : Matrix N} (h : WFS m) (x y : Nat) (c : Cell N) : WFS (m.place x y c) := by
  unfold Matrix.place; simp only; split
  · exact h
  · exact ⟨⟨by simp [h.len], h.graph⟩, h.savedLen⟩

theorem wfs_placeLoop {m : Matrix N} (h : WFS m) (cs : List (Cell N)) :
    WFS (m.placeLoop cs).1 ∧ (m.placeLoop cs).1.w = m.w ∧ (m.placeLoop cs).1.h = m.h ∧ (m.placeLoop cs).1.saved = m.saved := by
  induction cs generalizing m with
  | nil => exact ⟨h, rfl, rfl, rfl⟩
  | cons c cs ih =>
    unfold Matrix.placeLoop
    split
    · exact ⟨h, rfl, rfl, rfl⟩
    · split
      · exact ⟨h, rfl, rfl, rfl⟩
      · obtain ⟨p1, p2, p3, _⟩ := place_wh m c.pos.1 c.pos.2 c
        obtain ⟨q1, q2, q3, q4⟩ := ih (wfs_place h c.pos.1 c.pos.2 c)
        exact ⟨q1, by rw [q2, p1], by rw [q3, p2], by rw [q4, p3]⟩

theorem wfs_of_same {m m' : Matrix N} (h : WFS m) (hw : WF m') (hs : SameGrid m m') : WFS m' :=
  ⟨hw, by rw [hs.saved, hs.w, hs.h]; exact h.savedLen⟩

/-- Everything a step preserves. -/
theorem wfs_step {m m' : Matrix N} {op : MOp N} {r} (h : WFS m) (he : m.step op = some (m', r)) :
    WFS m' ∧ m'.w = m.w ∧ m'.h = m.h ∧ (op.KeepsBackup → m'.saved = m.saved) := by
  cases op with
  | place x y c =>
    simp only [Matrix.step, Option.some.injEq, Prod.mk.injEq] at he; obtain ⟨rfl, _⟩ := he
    obtain ⟨p1, p2, p3, _⟩ := place_wh m x y c
    exact ⟨wfs_place h x y c, p1, p2, fun _ => p3⟩
  | placeCell c =>
    simp only [Matrix.step, Option.some.injEq, Prod.mk.injEq] at he; obtain ⟨rfl, _⟩ := he
    obtain ⟨p1, p2, p3, _⟩ := place_wh m c.pos.1 c.pos.2 c
    exact ⟨wfs_place h _ _ c, p1, p2, fun _ => p3⟩
  | placeMultiple cs =>
    simp only [Matrix.step, Matrix.placeMultiple] at he
    obtain ⟨q1, q2, q3, q4⟩ := wfs_placeLoop h cs
    split at he
    · rename_i m1 e hp
      rw [hp] at q1 q2 q3 q4
      simp only [Option.some.injEq, Prod.mk.injEq] at he; obtain ⟨rfl, _⟩ := he
      exact ⟨q1, q2, q3, fun _ => q4⟩
    · rename_i m1 hp
      rw [hp] at q1 q2 q3 q4
      obtain ⟨w1, s1, _⟩ := wf_check q1.toWF he
      exact ⟨wfs_of_same q1 w1 s1, by rw [s1.w, q2], by rw [s1.h, q3], fun _ => by rw [s1.saved, q4]⟩
  | check =>
    obtain ⟨w1, s1, _⟩ := wf_check h.toWF he
    exact ⟨wfs_of_same h w1 s1, s1.w, s1.h, fun _ => s1.saved⟩
  | sync =>
    simp only [Matrix.step, Option.map_eq_some_iff] at he
    obtain ⟨⟨m1, r1⟩, h1, h2⟩ := he
    simp only [Prod.mk.injEq] at h2; obtain ⟨rfl, _⟩ := h2
    obtain ⟨w1, s1⟩ := wf_sync h.toWF h1
    exact ⟨wfs_of_same h w1 s1, s1.w, s1.h, fun _ => s1.saved⟩
  | clear =>
    simp only [Matrix.step, Matrix.clear, Option.map_eq_some_iff] at he
    obtain ⟨m1, ⟨⟨m2, r2⟩, h1, h3⟩, h2⟩ := he
    simp only at h3; subst h3
    simp only [Prod.mk.injEq] at h2; obtain ⟨rfl, _⟩ := h2
    have hw : WFS ({ m with cells := m.cells.map (fun _ => Cell.empty none), graph := m.graph.clear, edges := [], saved := none } : Matrix N) :=
      ⟨⟨by simp [h.len], h.graph⟩, by simp⟩
    obtain ⟨w1, s1⟩ := wf_sync hw.toWF h1
    exact ⟨wfs_of_same hw w1 s1, s1.w, s1.h, fun hk => absurd hk (by simp [MOp.KeepsBackup])⟩
  | save =>
    simp only [Matrix.step, Option.some.injEq, Prod.mk.injEq] at he; obtain ⟨rfl, _⟩ := he
    exact ⟨⟨⟨h.len, h.graph⟩, by intro c hc; simp [Matrix.saveMatrix] at hc; rw [← hc]; exact h.len⟩, rfl, rfl,
      fun hk => absurd hk (by simp [MOp.KeepsBackup])⟩
  | restore =>
    simp only [Matrix.step, Option.some.injEq, Prod.mk.injEq] at he; obtain ⟨rfl, _⟩ := he
    unfold Matrix.restoreMatrix
    split
    · rename_i c hc
      exact ⟨⟨⟨h.savedLen c hc, h.graph⟩, by simp⟩, rfl, rfl, fun hk => absurd hk (by simp [MOp.KeepsBackup])⟩
    · exact ⟨h, rfl, rfl, fun _ => rfl⟩

theorem wfs_runAll {m m' : Matrix N} {ops : List (MOp N)} (h : WFS m) (he : m.runAll ops = some m') :
    WFS m' ∧ m'.w = m.w ∧ m'.h = m.h ∧ ((∀ op ∈ ops, op.KeepsBackup) → m'.saved = m.saved) := by
  induction ops generalizing m with
  | nil => simp [Matrix.runAll] at he; subst he; exact ⟨h, rfl, rfl, fun _ => rfl⟩
  | cons op ops ih =>
    simp only [Matrix.runAll, List.foldlM_cons, Option.bind_eq_bind, Option.bind_eq_some_iff, Option.map_eq_some_iff] at he
    obtain ⟨m1, ⟨⟨m2, r⟩, h1, rfl⟩, h3⟩ := he
    obtain ⟨w1, a1, b1, c1⟩ := wfs_step h h1
    obtain ⟨w2, a2, b2, c2⟩ := ih w1 h3
    exact ⟨w2, by rw [a2, a1], by rw [b2, b1], fun hk => by
      rw [c2 (fun o ho => hk o (by simp [ho])), c1 (hk op (by simp))]⟩

theorem wfs_runErr {m m' : Matrix N} {ops : List (MOp N)} {r} (h : WFS m) (he : m.runErr ops = some (m', r)) :
    WFS m' ∧ m'.w = m.w ∧ m'.h = m.h ∧ ((∀ op ∈ ops, op.KeepsBackup) → m'.saved = m.saved) := by
  induction ops generalizing m with
  | nil => simp [Matrix.runErr] at he; obtain ⟨rfl, _⟩ := he; exact ⟨h, rfl, rfl, fun _ => rfl⟩
  | cons op ops ih =>
    unfold Matrix.runErr at he
    split at he
    · simp at he
    · rename_i m1 e h1
      simp only [Option.some.injEq, Prod.mk.injEq] at he; obtain ⟨rfl, _⟩ := he
      obtain ⟨w1, a1, b1, c1⟩ := wfs_step h h1
      exact ⟨w1, a1, b1, fun hk => c1 (hk op (by simp))⟩
    · rename_i m1 h1
      obtain ⟨w1, a1, b1, c1⟩ := wfs_step h h1
      obtain ⟨w2, a2, b2, c2⟩ := ih w1 he
      exact ⟨w2, by rw [a2, a1], by rw [b2, b1], fun hk => by
        rw [c2 (fun o ho => hk o (by simp [ho])), c1 (hk op (by simp))]⟩

theorem wfs_new (w h : Nat) : WFS (Matrix.new w h : Matrix N) :=
  ⟨⟨by simp [Matrix.new], rep_new.lens⟩, by simp [Matrix.new]⟩

theorem wfs_reachable {m : Matrix N} (h : m.Reachable) : WFS m := by
  obtain ⟨w, h, ops, hr⟩ := h
  exact (wfs_runAll (wfs_new w h) hr).1

end HexoDSP.Matrix
