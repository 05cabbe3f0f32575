import Verif.Lemmas.Monitor
/-!
# Monitoring (C21, C22)
-/

set_option linter.unusedSectionVars false

namespace HexoDSP.MonitorProps
open HexoDSP.Monitor HexoDSP.MonitorSpec HexoDSP.MonitorLemmas

/-- Every place where a buffer can be. -/
def places (w : World) : List Nat := w.unused ++ (w.hand.toList ++ ((w.procHand.toList ++ w.mon) ++ w.recycle))

/-- A published view shows some prefix of what was processed. -/
def Views (sent : List (Nat → List ℚ)) (v : Nat → Samples) : Prop :=
  ∃ m, m ≤ sent.length ∧ ∀ i, i < 6 → ∃ mm, MM (stream (sent.take m) i) mm ∧ v i = ⟨mm.buf, mm.wp⟩

/-- The invariant of the machine. -/
structure Inv (w : World) (l : Log) : Prop where
  perm : (places w).Perm (List.range 750)
  clean : ∀ id, id ∈ w.unused ∨ id ∈ w.recycle → Clean (w.bufs id)
  hand : ∀ id, w.hand = some id → Holds (w.bufs id) l.cur
  flow : ∃ done rest, l.sent = done ++ rest ∧ List.Forall₂ (fun id c => Holds (w.bufs id) c) (w.procHand.toList ++ w.mon) rest ∧
    ∀ i, i < 6 → MM (stream done i) (w.procs i)
  shared : Views l.sent w.shared
  copy : Views l.sent w.copy
  upToDate : w.newData = false → ∀ i, w.shared i = ⟨(w.procs i).buf, (w.procs i).wp⟩
  flag : w.flag = false → w.copy = w.shared

theorem Views.mono {s : List (Nat → List ℚ)} {v : Nat → Samples} (h : Views s v) (x : Nat → List ℚ) : Views (s ++ [x]) v := by
  obtain ⟨m, hm, hv⟩ := h
  refine ⟨m, by simp; omega, ?_⟩
  rw [List.take_append_of_le_length hm]
  exact hv

theorem inv_new : Inv World.new Log.new where
  perm := by simp [places, World.new]
  clean := fun id _ i => ⟨rfl, rfl⟩
  hand := fun id h => by cases h
  flow := ⟨[], [], rfl, List.Forall₂.nil, fun _ _ => MM.new⟩
  shared := ⟨0, Nat.le_refl _, fun _ _ => ⟨_, MM.new, rfl⟩⟩
  copy := ⟨0, Nat.le_refl _, fun _ _ => ⟨_, MM.new, rfl⟩⟩
  upToDate := fun _ _ => rfl
  flag := fun _ => rfl

theorem stream_append (a b : List (Nat → List ℚ)) (i : Nat) : stream (a ++ b) i = stream a i ++ stream b i := by
  simp [stream]

theorem forall₂_congr {α β : Type} {R S : α → β → Prop} : ∀ {a : List α} {b : List β}, List.Forall₂ R a b → (∀ x ∈ a, ∀ y, R x y → S x y) → List.Forall₂ S a b
  | _, _, .nil, _ => .nil
  | _, _, .cons h t, k => .cons (k _ List.mem_cons_self _ h) (forall₂_congr t (fun x hx => k x (List.mem_cons_of_mem _ hx)))

theorem forall₂_snoc {α β : Type} {R : α → β → Prop} : ∀ {a : List α} {b : List β} {x : α} {y : β}, List.Forall₂ R a b → R x y →
    List.Forall₂ R (a ++ [x]) (b ++ [y])
  | _, _, _, _, .nil, h => .cons h .nil
  | _, _, _, _, .cons h t, k => .cons h (forall₂_snoc t k)

theorem inv_step {w w' : World} {l : Log} (h : Inv w l) {op : Op} (hop : ∀ i xs, op = .feed i xs → i < 6 ∧ xs.length ≤ 128)
    (hs : w.step op = some w') : Inv w' (l.step w.hand.isSome op) := by
  have hnodup : (places w).Nodup := h.perm.nodup_iff.2 List.nodup_range
  have hlen : (places w).length = 750 := by rw [h.perm.length_eq, List.length_range]
  cases op with
  | recycle =>
    obtain rfl : w.checkRecycle = w' := Option.some.inj hs
    exact {
      perm := by
        refine List.Perm.trans ?_ h.perm
        unfold places World.checkRecycle
        simp only [List.append_nil]
        rw [List.append_assoc]
        refine (List.Perm.append_right _ (List.reverse_perm _)).trans ?_
        refine List.perm_append_comm.trans ?_
        simp only [List.append_assoc]
        exact List.Perm.refl _
      clean := by
        rintro id (hid | hid)
        · rcases List.mem_append.1 hid with hid | hid
          · exact h.clean id (Or.inr (List.mem_reverse.1 hid))
          · exact h.clean id (Or.inl hid)
        · cases hid
      hand := h.hand
      flow := h.flow
      shared := h.shared
      copy := h.copy
      upToDate := h.upToDate
      flag := h.flag }
  | take =>
    simp only [World.step, Option.some.injEq] at hs
    cases hh : w.hand with
    | some id =>
      rw [hh] at hs
      obtain rfl : w = w' := hs
      exact h
    | none =>
      rw [hh] at hs
      obtain rfl : w.take = w' := hs
      unfold World.take
      cases hu : w.unused with
      | nil =>
        simp only
        exact ⟨h.perm, h.clean, (fun id he => by rw [hh] at he; cases he), h.flow, h.shared, h.copy, h.upToDate, h.flag⟩
      | cons id rest =>
        simp only
        exact {
          perm := by
            refine List.Perm.trans ?_ h.perm
            unfold places
            rw [hu, hh]
            simp only [Option.toList_some, Option.toList_none, List.nil_append, List.cons_append]
            exact List.perm_middle
          clean := fun k hk => h.clean k (hk.imp_left (fun q => by rw [hu]; exact List.mem_cons_of_mem _ q))
          hand := by
            intro k hk
            obtain rfl : id = k := Option.some.inj hk
            exact (h.clean id (Or.inl (by rw [hu]; exact List.mem_cons_self))).holds
          flow := h.flow
          shared := h.shared
          copy := h.copy
          upToDate := h.upToDate
          flag := h.flag }
  | feed i xs =>
    obtain ⟨hi, hx⟩ := hop i xs rfl
    simp only [World.step] at hs
    cases hh : w.hand with
    | none =>
      rw [hh] at hs
      obtain rfl : w = w' := Option.some.inj hs
      exact h
    | some id =>
      rw [hh] at hs
      simp only at hs
      obtain ⟨b', e1, e2⟩ := feed_holds (h.hand id hh) hi hx
      rw [e1] at hs
      obtain rfl : w.setBuf id b' = w' := Option.some.inj hs
      have hne : ∀ k, k ∈ w.unused ∨ k ∈ (w.procHand.toList ++ w.mon) ∨ k ∈ w.recycle → k ≠ id := by
        rintro k hk rfl
        unfold places at hnodup
        rw [hh] at hnodup
        simp only [Option.toList_some, List.cons_append, List.nil_append] at hnodup
        obtain ⟨_, n2, n3⟩ := List.nodup_append.1 hnodup
        rcases hk with hk | hk
        · exact n3 k hk k List.mem_cons_self rfl
        · exact (List.nodup_cons.1 n2).1 (List.mem_append.2 hk)
      exact {
        perm := h.perm
        clean := by
          intro k hk
          have : k ≠ id := hne k (hk.imp_right Or.inr)
          simp only [World.setBuf, if_neg this]
          exact h.clean k hk
        hand := by
          intro k hk
          obtain rfl : id = k := by
            have : w.hand = some k := hk
            rw [hh] at this; exact Option.some.inj this
          simp only [World.setBuf, if_true]
          exact e2
        flow := by
          obtain ⟨done, rest, f1, f2, f3⟩ := h.flow
          refine ⟨done, rest, f1, forall₂_congr f2 ?_, f3⟩
          intro k hk y hy
          simp only [World.setBuf, if_neg (hne k (Or.inr (Or.inl hk)))]
          exact hy
        shared := h.shared
        copy := h.copy
        upToDate := h.upToDate
        flag := h.flag }
  | send =>
    simp only [World.step] at hs
    cases hh : w.hand with
    | none =>
      rw [hh] at hs
      obtain rfl : w = w' := Option.some.inj hs
      exact h
    | some id =>
      rw [hh] at hs
      have hroom : w.mon.length < 750 := by
        unfold places at hlen
        rw [hh] at hlen
        simp only [List.length_append, Option.toList_some, List.length_cons, List.length_nil] at hlen
        omega
      obtain rfl : w.send id = w' := Option.some.inj hs
      unfold World.send
      rw [if_pos hroom]
      exact {
        perm := by
          refine List.Perm.trans ?_ h.perm
          unfold places
          rw [hh]
          simp only [Option.toList_none, Option.toList_some, List.nil_append, List.append_assoc, List.cons_append]
          refine List.Perm.append_left _ ?_
          rw [← List.append_assoc]
          refine List.perm_middle.trans ?_
          rw [List.append_assoc]
        clean := h.clean
        hand := fun k hk => by cases hk
        flow := by
          obtain ⟨done, rest, f1, f2, f3⟩ := h.flow
          refine ⟨done, rest ++ [l.cur], ?_, ?_, f3⟩
          · show l.sent ++ [l.cur] = _
            rw [f1, List.append_assoc]
          · simp only
            rw [← List.append_assoc]
            exact forall₂_snoc f2 (h.hand id hh)
        shared := h.shared.mono _
        copy := h.copy.mono _
        upToDate := h.upToDate
        flag := h.flag }
  | pop =>
    simp only [World.step] at hs
    split at hs
    · next id rest hp hm =>
      obtain rfl := Option.some.inj hs
      exact {
        perm := by
          have := h.perm
          unfold places at this ⊢
          rw [hp, hm] at this
          exact this
        clean := h.clean
        hand := h.hand
        flow := by
          obtain ⟨done, r, f1, f2, f3⟩ := h.flow
          refine ⟨done, r, f1, ?_, f3⟩
          rw [hp, hm] at f2
          exact f2
        shared := h.shared
        copy := h.copy
        upToDate := h.upToDate
        flag := h.flag }
    · obtain rfl := Option.some.inj hs
      exact h
  | finish =>
    simp only [World.step] at hs
    cases hp : w.procHand with
    | none =>
      rw [hp] at hs
      obtain rfl := Option.some.inj hs
      exact h
    | some id =>
      rw [hp] at hs
      obtain ⟨done, r, f1, f2, f3⟩ := h.flow
      rw [hp] at f2
      simp only [Option.toList_some, List.cons_append, List.nil_append] at f2
      cases f2 with
      | cons g1 g2 =>
      next c r' =>
      have hroom : w.recycle.length < 750 := by
        unfold places at hlen
        rw [hp] at hlen
        simp only [List.length_append, Option.toList_some, List.length_cons, List.length_nil] at hlen
        omega
      have hne : ∀ k, k ∈ w.unused ∨ k ∈ w.hand.toList ∨ k ∈ w.mon ∨ k ∈ w.recycle → k ≠ id := by
        rintro k hk rfl
        unfold places at hnodup
        rw [hp] at hnodup
        simp only [Option.toList_some, List.cons_append, List.nil_append] at hnodup
        obtain ⟨_, n2, n3⟩ := List.nodup_append.1 hnodup
        rcases hk with hk | hk
        · exact n3 k hk k (List.mem_append_right _ List.mem_cons_self) rfl
        · obtain ⟨_, n4, n5⟩ := List.nodup_append.1 n2
          rcases hk with hk | hk
          · exact n5 k hk k List.mem_cons_self rfl
          · exact (List.nodup_cons.1 n4).1 (List.mem_append.2 hk)
      obtain ⟨ps', nd', b', p1, p2, p3, p4⟩ := processFrom_spec (List.range 6) w.procs w.newData (w.bufs id) List.nodup_range (by
        intro i hi
        have hi6 := List.mem_range.1 hi
        exact ⟨hi6, (g1 i hi6).1, (g1 i hi6).2.1⟩)
      have hfin : w.finish id = some { bufs := fun k => if k = id then b'.reset else w.bufs k, unused := w.unused, hand := w.hand, mon := w.mon, procHand := none, recycle := w.recycle ++ [id], procs := ps', newData := nd', shared := w.shared, flag := w.flag, copy := w.copy } := by
        unfold World.finish
        rw [p1]
        simp only
        rw [if_pos (show (w.setBuf id b'.reset).recycle.length < 750 from hroom)]
        rfl
      simp only at hs
      rw [hfin] at hs
      obtain rfl := Option.some.inj hs
      exact {
        perm := by
          refine List.Perm.trans ?_ h.perm
          unfold places
          rw [hp]
          simp only [Option.toList_none, Option.toList_some, List.nil_append, List.cons_append]
          refine List.Perm.append_left _ (List.Perm.append_left _ ?_)
          rw [← List.append_assoc]
          refine List.perm_append_comm.trans ?_
          exact List.Perm.refl _
        clean := by
          intro k hk
          simp only at hk ⊢
          by_cases hkid : k = id
          · rw [if_pos hkid]
            exact fun i => ⟨rfl, rfl⟩
          · rw [if_neg hkid]
            refine h.clean k (hk.imp_right (fun q => ?_))
            rcases List.mem_append.1 q with q | q
            · exact q
            · exact absurd (List.mem_singleton.1 q) hkid
        hand := by
          intro k hk
          have hk' : w.hand = some k := hk
          have : k ≠ id := hne k (Or.inr (Or.inl (by rw [hk']; exact List.mem_cons_self)))
          simp only [if_neg this]
          exact h.hand k hk'
        flow := by
          refine ⟨done ++ [c], r', ?_, ?_, ?_⟩
          · show l.sent = _
            rw [f1, List.append_assoc]; rfl
          · refine forall₂_congr g2 ?_
            intro k hk y hy
            simp only [if_neg (hne k (Or.inr (Or.inr (Or.inl hk))))]
            exact hy
          · intro i hi
            rw [stream_append, show stream [c] i = c i by simp [stream]]
            rw [← (g1 i hi).2.2]
            show MM _ (ps' i)
            rw [p2 i (List.mem_range.2 hi)]
            exact MM.feedAll _ (f3 i hi)
        shared := h.shared
        copy := h.copy
        upToDate := by
          intro hf i
          obtain ⟨q1, q2⟩ := p4 hf
          obtain ⟨q3, q4⟩ := q2 i
          show w.shared i = ⟨(ps' i).buf, (ps' i).wp⟩
          rw [q3, q4]
          exact h.upToDate q1 i
        flag := h.flag }
  | publish =>
    obtain rfl : w.publish = w' := Option.some.inj hs
    unfold World.publish
    split
    · obtain ⟨done, rest, f1, f2, f3⟩ := h.flow
      exact {
        perm := h.perm
        clean := h.clean
        hand := h.hand
        flow := ⟨done, rest, f1, f2, f3⟩
        shared := by
          refine ⟨done.length, by show done.length ≤ l.sent.length; rw [f1]; simp, ?_⟩
          intro i hi
          refine ⟨w.procs i, ?_, rfl⟩
          show MM (stream (l.sent.take done.length) i) _
          rw [f1, List.take_left]
          exact f3 i hi
        copy := h.copy
        upToDate := fun _ _ => rfl
        flag := fun hf => by cases hf }
    · exact h
  | get =>
    obtain rfl : w.get = w' := Option.some.inj hs
    unfold World.get
    split
    · exact {
        perm := h.perm
        clean := h.clean
        hand := h.hand
        flow := h.flow
        shared := h.shared
        copy := h.shared
        upToDate := h.upToDate
        flag := fun _ => rfl }
    · exact h

theorem step_ok {w : World} {l : Log} (h : Inv w l) {op : Op} (hop : ∀ i xs, op = .feed i xs → i < 6 ∧ xs.length ≤ 128) :
    ∃ w', w.step op = some w' := by
  cases op with
  | feed i xs =>
    obtain ⟨hi, hx⟩ := hop i xs rfl
    simp only [World.step]
    cases hh : w.hand with
    | none => exact ⟨_, rfl⟩
    | some id =>
      obtain ⟨b', e1, _⟩ := feed_holds (h.hand id hh) hi hx
      simp only [e1]
      exact ⟨_, rfl⟩
  | send => simp only [World.step]; split <;> exact ⟨_, rfl⟩
  | pop => simp only [World.step]; split <;> exact ⟨_, rfl⟩
  | finish =>
    simp only [World.step]
    cases hp : w.procHand with
    | none => exact ⟨_, rfl⟩
    | some id =>
      obtain ⟨done, r, f1, f2, f3⟩ := h.flow
      rw [hp] at f2
      simp only [Option.toList_some, List.cons_append, List.nil_append] at f2
      cases f2 with
      | cons g1 g2 =>
      obtain ⟨ps', nd', b', p1, _⟩ := processFrom_spec (List.range 6) w.procs w.newData (w.bufs id) List.nodup_range (by
        intro i hi
        have hi6 := List.mem_range.1 hi
        exact ⟨hi6, (g1 i hi6).1, (g1 i hi6).2.1⟩)
      simp only [World.finish, p1]
      exact ⟨_, rfl⟩
  | _ => exact ⟨_, rfl⟩

theorem run_inv : ∀ (ops : List Op) (w : World) (l : Log), Inv w l → okFeeds ops →
    ∃ w' l', runLog w l ops = some (w', l') ∧ w.run ops = some w' ∧ Inv w' l'
  | [], w, l, h, _ => ⟨w, l, rfl, rfl, h⟩
  | op :: ops, w, l, h, hok => by
    have hop : ∀ i xs, op = .feed i xs → i < 6 ∧ xs.length ≤ 128 := fun i xs e => hok i xs (e ▸ List.mem_cons_self)
    obtain ⟨w1, e1⟩ := step_ok h hop
    obtain ⟨w', l', r1, r2, r3⟩ := run_inv ops w1 _ (inv_step h hop e1) (fun i xs hm => hok i xs (List.mem_cons_of_mem _ hm))
    exact ⟨w', l', by rw [runLog, e1]; exact r1, by rw [World.run, e1]; exact r2, r3⟩

/-! ## C21 -/

/-- **C21** In every interleaving of the three threads each of the 750 buffers is in exactly one place: the stack of unused ones, the
hands of the audio thread, the queue, the hands of the monitor thread or the recycling queue. No action fails. -/
theorem buffers_conserved (ops : List Op) (hok : okFeeds ops) :
    ∃ w, World.new.run ops = some w ∧ ∀ id, id < 750 →
      w.unused.count id + (w.hand.toList.count id) + w.mon.count id + w.procHand.toList.count id + w.recycle.count id = 1 := by
  obtain ⟨w, l, _, h2, h3⟩ := run_inv ops _ _ inv_new hok
  refine ⟨w, h2, fun id hid => ?_⟩
  have := h3.perm.count_eq id
  unfold places at this
  simp only [List.count_append] at this
  have h1 : (List.range 750).count id = 1 := by rw [List.nodup_range.count, if_pos (List.mem_range.2 hid)]
  omega

/-- **C21** There are no other buffers than the 750. -/
theorem no_other_buffers (ops : List Op) (hok : okFeeds ops) (w : World) (h : World.new.run ops = some w) :
    w.unused.length + w.hand.toList.length + w.mon.length + w.procHand.toList.length + w.recycle.length = 750 := by
  obtain ⟨w', l, _, h2, h3⟩ := run_inv ops _ _ inv_new hok
  obtain rfl : w' = w := Option.some.inj (h2.symm.trans h)
  have := h3.perm.length_eq
  unfold places at this
  simp only [List.length_append, List.length_range] at this
  omega

/-- **C21** Neither queue ever overflows: there is room in the first one when the audio thread sends a buffer, and in the recycling queue when
the monitor thread returns one. -/
theorem queues_have_room (ops : List Op) (hok : okFeeds ops) (w : World) (h : World.new.run ops = some w) :
    (w.hand.isSome → w.mon.length < 750) ∧ (w.procHand.isSome → w.recycle.length < 750) := by
  have := no_other_buffers ops hok w h
  refine ⟨fun hs => ?_, fun hs => ?_⟩
  · cases hh : w.hand with
    | none => rw [hh] at hs; cases hs
    | some id => rw [hh] at this; simp only [Option.toList_some, List.length_cons, List.length_nil] at this; omega
  · cases hh : w.procHand with
    | none => rw [hh] at hs; cases hs
    | some id => rw [hh] at this; simp only [Option.toList_some, List.length_cons, List.length_nil] at this; omega

/-- **C21** When everything was processed and recycled, all buffers can be handed out again. -/
theorem all_return (ops : List Op) (hok : okFeeds ops) (w : World) (h : World.new.run ops = some w) (h1 : w.hand = none)
    (h2 : w.mon = []) (h3 : w.procHand = none) : w.checkRecycle.unused.length = 750 := by
  have := no_other_buffers ops hok w h
  rw [h1, h2, h3] at this
  simp only [World.checkRecycle, List.length_append, List.length_reverse]
  simp only [Option.toList_none, List.length_nil] at this
  omega

/-! ## C22 -/

theorem sent_quiet : ∀ (ops : List Op) (w : World) (l : Log) (w' : World) (l' : Log), quiet ops →
    (∀ i, ∀ x ∈ l.cur i, -100 ≤ x ∧ x ≤ 100) → (∀ c ∈ l.sent, ∀ i, ∀ x ∈ c i, -100 ≤ x ∧ x ≤ 100) → runLog w l ops = some (w', l') →
    ∀ c ∈ l'.sent, ∀ i, ∀ x ∈ c i, -100 ≤ x ∧ x ≤ 100
  | [], w, l, w', l', _, _, h2, h => by
    obtain ⟨_, rfl⟩ := Prod.mk.inj (Option.some.inj h)
    exact h2
  | op :: ops, w, l, w', l', hq, h1, h2, h => by
    rw [runLog] at h
    obtain ⟨w1, _, h⟩ := Option.bind_eq_some_iff.1 h
    refine sent_quiet ops w1 _ w' l' (fun i xs hm => hq i xs (List.mem_cons_of_mem _ hm)) ?_ ?_ h
    · cases op with
      | take => simp only [Log.step]; split
                · exact h1
                · intro i x hx; cases hx
      | feed i xs =>
        simp only [Log.step]
        split
        · intro j x hx
          simp only at hx
          split at hx
          · exact hq i xs List.mem_cons_self x hx
          · exact h1 j x hx
        · exact h1
      | send => simp only [Log.step]; split <;> exact h1
      | _ => exact h1
    · cases op with
      | send =>
        simp only [Log.step]
        split
        · intro c hc
          rcases List.mem_append.1 hc with hc | hc
          · exact h2 c hc
          · rw [List.mem_singleton.1 hc]; exact h1
        · exact h2
      | take => simp only [Log.step]; split <;> exact h2
      | feed i xs => simp only [Log.step]; split <;> exact h2
      | _ => exact h2

theorem stream_quiet {s : List (Nat → List ℚ)} (h : ∀ c ∈ s, ∀ i, ∀ x ∈ c i, (-100 : ℚ) ≤ x ∧ x ≤ 100) (m i : Nat) :
    ∀ x ∈ stream (s.take m) i, -100 ≤ x ∧ x ≤ 100 := by
  intro x hx
  obtain ⟨c, hc, hx⟩ := List.mem_flatMap.1 hx
  exact h c (List.mem_of_mem_take hc) i x hx

/-- **C22** What the frontend gets, at any moment of any interleaving, are for all six signals the true extremes of the windows of 900 samples of
a prefix of what was sent, however it was cut into buffers; points without a window are (0, 0). The samples have to be within ±100. -/
theorem points_are_extremes_partial (ops : List Op) (hok : okFeeds ops) (hq : quiet ops) (w : World) (l : Log)
    (h : runLog World.new Log.new ops = some (w, l)) :
    ∃ m, m ≤ l.sent.length ∧ ∀ i, i < 6 → Shows (stream (l.sent.take m) i) (w.copy i) := by
  obtain ⟨w', l', h1, _, h3⟩ := run_inv ops _ _ inv_new hok
  obtain ⟨rfl, rfl⟩ := Prod.mk.inj (Option.some.inj (h1.symm.trans h))
  obtain ⟨m, hm, hv⟩ := h3.copy
  have hs := sent_quiet ops _ _ _ _ hq (by intro i x hx; cases hx) (by intro c hc; cases hc) h
  refine ⟨m, hm, fun i hi => ?_⟩
  obtain ⟨mm, h4, h5⟩ := hv i hi
  rw [h5]
  exact shows_of_MM h4 (stream_quiet hs m i)

/-- **C22** When the monitor thread has processed all buffers and published, the frontend gets the extremes of all that was sent. -/
theorem points_up_to_date_partial (ops : List Op) (hok : okFeeds ops) (hq : quiet ops) (w : World) (l : Log)
    (h : runLog World.new Log.new ops = some (w, l)) (h1 : w.mon = []) (h2 : w.procHand = none) :
    ∀ i, i < 6 → Shows (stream l.sent i) (w.publish.get.copy i) := by
  obtain ⟨w', l', r1, _, h3⟩ := run_inv ops _ _ inv_new hok
  obtain ⟨rfl, rfl⟩ := Prod.mk.inj (Option.some.inj (r1.symm.trans h))
  have hs := sent_quiet ops _ _ _ _ hq (by intro i x hx; cases hx) (by intro c hc; cases hc) h
  obtain ⟨done, rest, f1, f2, f3⟩ := h3.flow
  rw [h1, h2] at f2
  obtain rfl : rest = [] := by cases f2; rfl
  rw [List.append_nil] at f1
  have i1 : Inv w'.publish l' := inv_step h3 (op := .publish) (fun i xs e => by cases e) rfl
  have i2 : Inv w'.publish.get l' := inv_step i1 (op := .get) (fun i xs e => by cases e) rfl
  have hnd : w'.publish.newData = false := by
    unfold World.publish
    split
    · rfl
    · next hn => exact Bool.eq_false_iff.2 hn
  have hprocs : w'.publish.procs = w'.procs := by unfold World.publish; split <;> rfl
  have hfl : w'.publish.get.flag = false := by
    unfold World.get
    split
    · rfl
    · next hn => exact Bool.eq_false_iff.2 hn
  have hsh : w'.publish.get.shared = w'.publish.shared := by unfold World.get; split <;> rfl
  intro i hi
  rw [i2.flag hfl, hsh, i1.upToDate hnd i, hprocs]
  have hmm := f3 i hi
  rw [← f1] at hmm
  have := stream_quiet hs l'.sent.length i
  rw [List.take_length] at this
  exact shows_of_MM hmm this

/-- The audio thread sends one buffer and the monitor thread processes it. -/
def sendOne (i : Nat) (xs : List ℚ) : List Op := [.recycle, .take, .feed i xs, .send, .pop, .finish]

set_option maxRecDepth 100000 in
/-- **C22** (negation) Samples beyond ±100 are not shown right: 900 samples of 200 appear with the minimum 100. -/
theorem loud_signal_wrong :
    (World.new.run ((List.replicate 9 (sendOne 0 (List.replicate 100 200))).flatten ++ [.publish, .get])).map (fun w => (w.copy 0).at 159) =
      some (100, 200) := by
  decide +kernel

set_option maxRecDepth 100000 in
/-- Nine buffers of 100 samples make a point. -/
example : okFeeds ((List.replicate 9 (sendOne 0 (List.replicate 100 2))).flatten ++ [.publish, .get]) ∧
    (World.new.run ((List.replicate 9 (sendOne 0 (List.replicate 100 2))).flatten ++ [.publish, .get])).map (fun w => (w.copy 0).at 159) =
      some (2, 2) := by
  refine ⟨?_, by decide +kernel⟩
  intro i xs h
  simp only [List.mem_append, List.mem_flatten, List.mem_replicate] at h
  rcases h with ⟨l, ⟨_, rfl⟩, h⟩ | h
  · simp only [sendOne, List.mem_cons, reduceCtorEq, Op.feed.injEq, false_or, List.not_mem_nil, or_false] at h
    obtain ⟨rfl, rfl⟩ := h
    simp
  · simp at h

end HexoDSP.MonitorProps
