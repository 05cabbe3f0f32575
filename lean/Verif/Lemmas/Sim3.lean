import Verif.Lemmas.Sim2
/-! The engine follows the reference machine: blocks and histories. -/

set_option linter.unusedSectionVars false

namespace HexoDSP.Engine
open EngineSpec

variable {N V A M σ : Type} [DecidableEq N]

section
variable [Add V] [Mul V] [OfNat V 0]

theorem runSmoothers_params {inp : List BufId} (nf : Nat) (l : List (Nat × Smoother V)) :
    ∀ {a : SmoothAcc V} {r : List (Nat × Smoother V) × SmoothAcc V}, runSmoothers inp nf a l = some r →
      r.2.params.length = a.params.length := by
  induction l with
  | nil => intro a r h; cases h; rfl
  | cons x l ih =>
    intro a r h
    obtain ⟨i, s⟩ := x
    simp only [runSmoothers] at h
    split at h
    · obtain ⟨r', h1, rfl⟩ := Option.map_eq_some_iff.1 h
      have := ih h1
      exact this
    · split at h
      · cases h
      · obtain ⟨r', h1, rfl⟩ := Option.map_eq_some_iff.1 h
        have := ih h1
        simpa using this

/-- What a block does, given that it does not panic. -/
structure BlockDone (run : σ → CallIn N V A → σ × (Nat → Block V)) (p p' : NodeProg N V A) (nf : Nat)
    (H : Heap V) (st st' : σ) (cs : List (Call N V A)) : Prop where
  runs : Runs run st cs st'
  len : cs.length = p.prog.length
  calls : ∀ (i : Nat) (op : NodeOp N) (c : Call N V A), p.prog[i]? = some op → cs[i]? = some c → CallOK p nf H op c
  fb : ∀ op ∈ p.prog, ∀ g, Within op.outR g → p'.outFb[g]? = (p.out[g]?).map (fun b => H.data b (nf - 1))
  frames : 0 < nf ∧ nf ≤ 128

theorem CallOK.congr {p q : NodeProg N V A} {nf : Nat} {H : Heap V} {op : NodeOp N} {c : Call N V A}
    (h : CallOK p nf H op c) (hi : q.inp = p.inp) (ho : q.out = p.out) (hm : q.modops = p.modops)
    (ha : q.atoms = p.atoms) (hcu : q.curInp = p.curInp) : CallOK q nf H op c := by
  refine ⟨h.node, h.nframes, h.inConnected, h.outConnected, by rw [ha]; exact h.atoms, by rw [hi]; exact h.params,
    by rw [ho]; exact h.outputs, h.oldLen, h.inLen, fun k hk => ?_, fun k hk => ?_⟩
  · obtain ⟨b, h1, h2⟩ := h.inputs k hk
    refine ⟨b, h1, ?_⟩
    unfold InputIs at h2 ⊢
    rw [hi, ho, hm]
    exact h2
  · obtain ⟨b, h1, h2, h3⟩ := h.cur k hk
    refine ⟨b, by rw [hcu]; exact h1, ?_, h3⟩
    unfold wantBuf at h2 ⊢
    rw [hi, ho, hm]
    exact h2

theorem process_plays {T : NodeTable N V A} {l : Layout N V} {now : Playing N V A}
    (run : σ → CallIn N V A → σ × (Nat → Block V)) {e e' : Exec N V A M}
    {h h' : Heap V} {st st' : σ} {nf : Nat} {r : BlockResult N V A} (hp : Plays T l now e.prog)
    (hnd : e.prog.owned.Nodup) (hpr : e.process run h st nf = some (e', h', st', r)) :
    Plays T l now e'.prog ∧ BlockDone run e.prog e'.prog nf h' st st' r.calls := by
  obtain ⟨_, t1, t2, t3, t4, t5, t6, _, _, _⟩ := process_touches run hpr
  have key : ∃ (ps : List V) (h1 : Heap V), ps.length = e.prog.params.length ∧ e'.prog.params.length = ps.length ∧
      RanOK run { e.prog with params := ps } nf h1 st e.prog.prog
        { heap := h', st := st', calls := r.calls, outFb := e'.prog.outFb } ∧ 0 < nf ∧ nf ≤ 128 := by
    unfold Exec.process at hpr
    split at hpr
    · cases hpr
    · rename_i hnf
      unfold Exec.processSmoothers at hpr
      cases hx : refreshTargets e.prog.inp h e.targetRefresh.reverse with
      | none => simp [hx] at hpr
      | some h1 =>
        simp only [hx] at hpr
        cases hx2 : runSmoothers e.prog.inp nf { heap := h1, params := e.prog.params, refresh := [] } e.smoothers with
        | none => simp [hx2] at hpr
        | some x =>
          obtain ⟨ss, a⟩ := x
          simp only [hx2] at hpr
          have hlen : a.params.length = e.prog.params.length := runSmoothers_params nf _ hx2
          have hok : ProgOK { e.prog with params := a.params } := by
            have := hp.carries.ok hnd
            exact ⟨this.curLen, hlen.trans this.parLen, this.fbLen, this.owned, this.ops⟩
          obtain ⟨y, hy1, hy2⟩ := runAll_spec (run := run) (nf := nf) hok hp.linked a.heap st
          have hy1' : e.prog.prog.foldlM (runOp run nf { e.prog with params := a.params })
            { heap := a.heap, st := st, calls := [], outFb := e.prog.outFb } = some y := hy1
          rw [hy1'] at hpr
          simp only at hpr
          cases hx4 : feedMonitors { e.prog with params := a.params } y.heap 0 e.monitorIdx with
          | none => simp [hx4] at hpr
          | some mon =>
            simp only [hx4, Option.some.injEq, Prod.mk.injEq] at hpr
            obtain ⟨rfl, rfl, rfl, rfl⟩ := hpr
            exact ⟨a.params, a.heap, hlen, rfl, hy2, by omega, by omega⟩
  obtain ⟨ps, h1, k1, k2, k3, k4⟩ := key
  have hfb : e'.prog.outFb.length = e.prog.outFb.length := by
    rw [(hp.carries.ok hnd).fbLen]; exact k3.fbLen
  refine ⟨⟨hp.carries.congr (by rw [t2]) (by rw [t1]) t6 (by rw [t4]) (k2.trans k1) hfb t5 (by rw [t3]), ?_⟩, ?_⟩
  · intro op hop g hg
    rw [t5] at hop
    have := hp.linked op hop g hg
    unfold LinkedTo at this ⊢
    have hw : wantBuf e'.prog g (lastConn op.inputs g) = wantBuf e.prog g (lastConn op.inputs g) := by
      unfold wantBuf
      rw [t1, t2, t3]
    rw [hw, t1, t2, t3, t4]
    exact this
  · exact ⟨k3.runs, k3.len, fun i op c hi hc => (k3.calls i op c hi hc).congr rfl rfl rfl rfl rfl, k3.fb, k4⟩

end

/-! ### Histories -/

/-- The parameters the configurator knows are the latest ones asked for. -/
def Knows (T : NodeTable N V A) (l : Layout N V) (c : Conf N V A) (pl : Playing N V A) : Prop :=
  ∀ n ∈ l.ids, ∀ k, k < T.inCount n → paramIn T c n k = pl.param n k

/-- The engine and the reference machine. -/
def SimAt (T : NodeTable N V A) (le lc : Layout N V) (w : World N V A M σ) (t : Track N V A) : Prop :=
  Plays T le t.now w.exec.prog ∧ Match T le t.now w.queue t.pending lc ∧ ConfLay T lc w.conf ∧
    Knows T lc w.conf (t.pending.foldl Playing.update t.now)

def Sim (T : NodeTable N V A) (w : World N V A M σ) (t : Track N V A) : Prop := ∃ le lc, SimAt T le lc w t

/-- The layout of the running program changes when the audio thread polls. -/
def nextLay (le lc : Layout N V) : EOp N V A M → Layout N V
  | .poll => lc
  | _ => le

theorem Knows.congr {T : NodeTable N V A} {l : Layout N V} {c c' : Conf N V A} {pl pl' : Playing N V A}
    (h : Knows T l c pl) (hc : c'.paramValues = c.paramValues) (hp : pl'.param = pl.param) : Knows T l c' pl' := by
  intro n hn k hk
  rw [hp, ← h n hn k hk, paramIn_eq, paramIn_eq, hc]

theorem Knows.set {T : NodeTable N V A} {l : Layout N V} {c c' : Conf N V A} {pl : Playing N V A} {n : N} {i : Nat} {v : V}
    (h : Knows T l c pl) (hc : c'.paramValues = Map.insert c.paramValues (n, i) v) :
    Knows T l c' (pl.update (.param n i v)) := by
  intro m hm k hk
  show _ = if m = n ∧ k = i then v else pl.param m k
  rw [paramIn_eq, hc, lookup_insert]
  by_cases he : m = n ∧ k = i
  · obtain ⟨rfl, rfl⟩ := he
    simp
  · have : ((m, k) == (n, i)) = false := by simpa using he
    rw [this, if_neg he, ← h m hm k hk, paramIn_eq]
    rfl

theorem agree_build [OfNat V 0] {T : NodeTable N V A} {a0 : A} {c c' : Conf N V A} {h h' : Heap V} {order : List N}
    {es : List (Conn N)} {p : NodeProg N V A} (hw : ConfWF c)
    (hb : c.buildProg T a0 h order es = some (c', p, h')) (l : Layout N V) :
    Knows T l c' (syncPlaying T c order es) := by
  intro n hn k hk
  show paramIn T c' n k = paramIn T c n k
  have hst := tables_buildProg hb
  have hs := rebuildLoop_spec T c hw.nodup
  have hv : c'.paramValues = (c.rebuildLoop T).paramValues := hst.paramValues
  rw [paramIn_eq, paramIn_eq, hv, hs.val]
  split <;> simp

theorem send_room {w : World N V A M σ} (m : Msg N V A M) (h : w.queue.length < queueCapacity) :
    (w.send m).queue = w.queue ++ [m] ∧ (w.send m).conf = w.conf ∧ (w.send m).exec = w.exec := by
  unfold World.send
  rw [if_pos h]
  exact ⟨rfl, rfl, rfl⟩

theorem send_noise {T : NodeTable N V A} {w : World N V A M σ} {t : Track N V A} (m : Msg N V A M)
    {le lc : Layout N V} (hm : ∀ (l : Layout N V) (now : Playing N V A), Match1 T l now [m] [] l) (h : SimAt T le lc w t) :
    SimAt T le lc (w.send m) t := by
  obtain ⟨h1, h2, h3, h4⟩ := h
  unfold World.send
  split
  · exact ⟨h1, by simpa using h2.snoc (hm lc _), h3, h4⟩
  · exact ⟨h1, h2, h3, h4⟩

section
variable [Add V] [Mul V] [Sub V] [Div V] [NatCast V] [OfNat V 0]

theorem sim_new (T : NodeTable N V A) (st : σ) : Sim T (World.new st : World N V A M σ) (Track.new T) :=
  ⟨Layout.empty, Layout.empty, carries_empty T _ rfl rfl, .nil _ _, confLay_new T, fun n hn => by cases hn⟩

theorem account_cnt {w : World N V A M σ} (h : Account w) (b : Nat) :
    cnt w.exec w.shared b + (w.queue.flatMap Msg.owned).count b ≤ 1 := by
  have := h.once b
  rw [count_buffers] at this
  split at this <;> omega

theorem account_owned {w : World N V A M σ} (h : Account w) : w.exec.prog.owned.Nodup := by
  apply nodup_of_count_le
  intro b
  have := account_cnt h b
  unfold cnt at this
  omega

/-- Updating parameters of the running program. -/
theorem simAt_step {T : NodeTable N V A} (hT : ∀ n, T.inCount n ≤ 32) {a0 : A}
    {run : σ → CallIn N V A → σ × (Nat → Block V)}
    {w w' : World N V A M σ} {t : Track N V A} {op : EOp N V A M} {out : Option (BlockResult N V A)}
    {le lc : Layout N V} (hwf : ConfWF w.conf) (hacc : Account w) (h : SimAt T le lc w t) (hc : Careful T w op)
    (hs : w.step T a0 run op = some (w', out)) : ∃ lc', SimAt T (nextLay le lc op) lc' w' (t.step T w.conf op) := by
  have h0 := h
  obtain ⟨h1, h2, h3, h4⟩ := h
  have hsnoc : ∀ u : List (Update N V A), (t.pending ++ u).foldl Playing.update t.now =
      u.foldl Playing.update (t.pending.foldl Playing.update t.now) := fun u => List.foldl_append
  cases op with
  | createNode n =>
    cases hs
    exact ⟨lc, h1, by simpa [nextLay, Track.step, asks] using h2, h3.create hwf n hc.polite,
      by simpa [Track.step, asks] using h4.congr (c' := w.conf.createNode n) rfl rfl⟩
  | deleteNodes =>
    have hroom := hc.room (by simp [asks])
    simp only [World.step, Conf.deleteNodes, Option.some.injEq, Prod.mk.injEq] at hs
    obtain ⟨rfl, _⟩ := hs
    obtain ⟨q1, q2, q3⟩ := send_room (w := { w with conf := Conf.new }) (Msg.clear NodeProg.empty) hroom
    refine ⟨Layout.empty, ?_, ?_, ?_, fun n hn => by cases hn⟩
    · show Plays T le t.now (World.send _ _).exec.prog
      rw [q3]; exact h1
    · show Match T le t.now (World.send _ _).queue _ _
      rw [q1]
      exact h2.snoc .clear
    · show ConfLay T Layout.empty (World.send _ _).conf
      rw [q2]; exact confLay_new T
  | setInput n i v =>
    have hroom := hc.room (by simp only [asks]; split <;> simp)
    simp only [World.step, Conf.setInput] at hs
    cases hl : w.conf.params.lookup (n, i) with
    | none =>
      simp only [hl, Option.some.injEq, Prod.mk.injEq] at hs
      obtain ⟨rfl, _⟩ := hs
      have hno : ¬ ((w.conf.instanceOf n).isSome ∧ i < T.inCount n) := by
        rintro ⟨a, b⟩
        obtain ⟨ni, hni⟩ := Option.isSome_iff_exists.1 a
        exact h3.parNone hl ⟨(h3.inst n ni hni).1, b⟩
      have ha : asks T w.conf (.setInput n i v : EOp N V A M) = [.store n i v] := if_neg hno
      have ht : t.step T w.conf (.setInput n i v : EOp N V A M) = { t with pending := t.pending ++ [.store n i v] } := by
        rw [← ha]; rfl
      rw [ht]
      exact ⟨lc, h1, by simpa [nextLay, World.sendAll] using h2.snoc (.paramSkip v (h3.parNone hl)), h3.congr rfl rfl rfl rfl,
        by show Knows T lc _ ((t.pending ++ [Update.store n i v]).foldl Playing.update t.now); rw [hsnoc]; exact h4.set rfl⟩
    | some np =>
      simp only [hl, Option.some.injEq, Prod.mk.injEq] at hs
      obtain ⟨rfl, _⟩ := hs
      obtain ⟨k1, k2, k3, k4⟩ := h3.parSome hl
      have ha : asks T w.conf (.setInput n i v : EOp N V A M) = [.param n i v] := if_pos ⟨h3.has n k1, k2⟩
      have ht : t.step T w.conf (.setInput n i v : EOp N V A M) = { t with pending := t.pending ++ [.param n i v] } := by
        rw [← ha]; rfl
      rw [ht]
      obtain ⟨q1, q2, q3⟩ := send_room (w := { w with conf := { w.conf with
        paramValues := Map.insert w.conf.paramValues (n, i) v
        params := Map.insert w.conf.params (n, i) { np with value := v } } }) (Msg.paramUpdate np.inputIdx v) hroom
      refine ⟨lc, ?_, ?_, ?_, ?_⟩
      · show Plays T le t.now (World.send _ _).exec.prog
        rw [q3]; exact h1
      · show Match T le t.now (World.send _ _).queue _ _
        rw [q1, k3]
        exact h2.snoc (.param v k1 k2)
      · show ConfLay T lc (World.send _ _).conf
        rw [q2]; exact h3.insertPar hl rfl rfl rfl rfl rfl rfl
      · show Knows T lc (World.send _ _).conf ((t.pending ++ [Update.param n i v]).foldl Playing.update t.now)
        rw [hsnoc, q2]; exact h4.set rfl
  | setAtom n i a =>
    have hroom := hc.room (by simp [asks])
    simp only [World.step, Conf.setAtom] at hs
    cases hl : w.conf.atoms.lookup (n, i) with
    | none =>
      simp only [hl, Option.some.injEq, Prod.mk.injEq] at hs
      obtain ⟨rfl, _⟩ := hs
      exact ⟨lc, h1, by simpa [nextLay, World.sendAll, Track.step, asks] using h2.snoc (.atomSkip a (h3.atNone hl)), h3.congr rfl rfl rfl rfl,
        by show Knows T lc _ ((t.pending ++ [Update.atom n i a]).foldl Playing.update t.now); rw [hsnoc]; exact h4.congr rfl rfl⟩
    | some na =>
      simp only [hl, Option.some.injEq, Prod.mk.injEq] at hs
      obtain ⟨rfl, _⟩ := hs
      obtain ⟨k1, k2, k3⟩ := h3.atSome hl
      obtain ⟨q1, q2, q3⟩ := send_room (w := { w with conf := { w.conf with
        atomValues := Map.insert w.conf.atomValues (n, i) a
        atoms := Map.insert w.conf.atoms (n, i) { na with value := a } } }) (Msg.atomUpdate na.atIdx a) hroom
      refine ⟨lc, ?_, ?_, ?_, ?_⟩
      · show Plays T le t.now (World.send _ _).exec.prog
        rw [q3]; exact h1
      · show Match T le t.now (World.send _ _).queue _ _
        rw [q1, k3]
        exact h2.snoc (.atom a k1 k2)
      · show ConfLay T lc (World.send _ _).conf
        rw [q2]; exact h3.insertAt hl rfl rfl rfl rfl rfl
      · show Knows T lc (World.send _ _).conf ((t.pending ++ [Update.atom n i a]).foldl Playing.update t.now)
        rw [hsnoc, q2]; exact h4.congr rfl rfl
  | setModamt p v =>
    cases p with
    | atom n i =>
      simp only [World.step, Conf.setModamt, Option.some.injEq, Prod.mk.injEq] at hs
      obtain ⟨rfl, _⟩ := hs
      exact ⟨lc, h1, by simpa [nextLay, World.sendAll, Track.step, asks] using h2, h3,
        by simpa [World.sendAll, Track.step, asks] using h4⟩
    | input n i =>
      -- the tables keep their layout
      have hlay : ∀ pv' : List ((N × Nat) × Option V), ConfLay T lc { w.conf with
          params := (match w.conf.params.lookup (n, i) with
            | none => w.conf.params
            | some np =>
              match np.modamt with
              | none => w.conf.params
              | some m => Map.insert w.conf.params (n, i) { np with modamt := some (m.1, v.getD 0) })
          paramModamt := pv' } := by
        intro pv'
        cases hl : w.conf.params.lookup (n, i) with
        | none => exact h3.congr rfl rfl rfl rfl
        | some np =>
          cases hm : np.modamt with
          | none => exact h3.congr (by simp [hm]) rfl rfl rfl
          | some m => exact h3.insertPar hl (np' := { np with modamt := some (m.1, v.getD 0) }) (by simp [hm]) rfl rfl (by simp [hm]) rfl rfl
      simp only [World.step, Conf.setModamt] at hs
      cases ho : (w.conf.paramModamt.lookup (n, i)).join with
      | none =>
        have hasks : asks T w.conf (.setModamt (.input n i) v : EOp N V A M) = [] := by
          cases v <;> simp [asks, Conf.getModamt, ho]
        simp only [ho, Option.some.injEq, Prod.mk.injEq] at hs
        obtain ⟨rfl, _⟩ := hs
        refine ⟨lc, h1, ?_, hlay _, ?_⟩
        · show Match T le t.now w.queue (t.pending ++ asks T w.conf _) lc
          rw [hasks, List.append_nil]
          exact h2
        · show Knows T lc _ ((t.pending ++ asks T w.conf _).foldl Playing.update t.now)
          rw [hasks, List.append_nil]
          exact h4.congr rfl rfl
      | some old =>
        cases v with
        | none =>
          simp only [ho, Option.some.injEq, Prod.mk.injEq] at hs
          obtain ⟨rfl, _⟩ := hs
          refine ⟨lc, h1, ?_, hlay _, ?_⟩
          · show Match T le t.now w.queue (t.pending ++ []) lc
            rw [List.append_nil]
            exact h2
          · show Knows T lc _ ((t.pending ++ []).foldl Playing.update t.now)
            rw [List.append_nil]
            exact h4.congr rfl rfl
        | some x =>
          have hasks : asks T w.conf (.setModamt (.input n i) (some x) : EOp N V A M) = [.amount n i x] := by
            simp [asks, Conf.getModamt, ho]
          have hroom := hc.room (by rw [hasks]; simp)
          simp only [ho, Option.some.injEq, Prod.mk.injEq] at hs
          obtain ⟨rfl, _⟩ := hs
          have hstep : (t.step T w.conf (.setModamt (.input n i) (some x) : EOp N V A M)) =
              { t with pending := t.pending ++ [.amount n i x] } := by
            show { t with pending := t.pending ++ asks T w.conf _ } = _
            rw [hasks]
          rw [hstep]
          cases hmi : (w.conf.params.lookup (n, i)).bind (fun np => np.modamt) with
          | none =>
            refine ⟨lc, h1, ?_, hlay _, by show Knows T lc _ ((t.pending ++ _).foldl Playing.update t.now); rw [hsnoc]; exact h4.congr rfl rfl⟩
            show Match T le t.now w.queue (t.pending ++ [.amount n i x]) lc
            have hskip : ¬ (n ∈ lc.ids ∧ i < T.inCount n ∧ (amtOf lc.amts n i).isSome) := by
              rintro ⟨e1, e2, e3⟩
              cases hl : w.conf.params.lookup (n, i) with
              | none => exact h3.parNone hl ⟨e1, e2⟩
              | some np =>
                have := (h3.parSome hl).2.2.2
                rw [if_pos e3] at this
                rw [hl] at hmi
                simp only [Option.bind_some] at hmi
                rw [hmi] at this
                cases this
            simpa using h2.snoc (.amountSkip x hskip)
          | some m =>
            cases hl : w.conf.params.lookup (n, i) with
            | none => rw [hl] at hmi; cases hmi
            | some np =>
              have hlay' := hlay (Map.insert w.conf.paramModamt (n, i) (some x))
              obtain ⟨k1, k2, k3, k4⟩ := h3.parSome hl
              rw [hl] at hmi
              simp only [Option.bind_some] at hmi
              rw [hmi] at k4
              simp only [Option.map_some] at k4
              split at k4
              · rename_i hsome
                have hk : m.1 = lc.modIdx T n i := Option.some.inj k4
                simp only [hl, hmi] at hlay'
                simp only [hmi, Option.map_some]
                obtain ⟨q1, q2, q3⟩ := send_room (w := { w with conf := { w.conf with
                  params := Map.insert w.conf.params (n, i) { np with modamt := some (m.1, (some x).getD 0) }
                  paramModamt := Map.insert w.conf.paramModamt (n, i) (some x) } }) (Msg.modamtUpdate m.1 x) hroom
                refine ⟨lc, ?_, ?_, ?_, ?_⟩
                · show Plays T le t.now (World.send _ _).exec.prog
                  rw [q3]; exact h1
                · show Match T le t.now (World.send _ _).queue _ _
                  rw [q1, hk]
                  exact h2.snoc (.amount x k1 k2 hsome)
                · show ConfLay T lc (World.send _ _).conf
                  rw [q2]; exact hlay'
                · show Knows T lc (World.send _ _).conf ((t.pending ++ [Update.amount n i x]).foldl Playing.update t.now)
                  rw [hsnoc, q2]; exact h4.congr rfl rfl
              · cases k4
  | sync order es co =>
    have hroom := hc.room (by simp [asks])
    simp only [World.step] at hs
    obtain ⟨⟨c1, p1, hp1⟩, hb, heq⟩ := Option.map_eq_some_iff.1 hs
    simp only [Prod.mk.injEq] at heq
    obtain ⟨rfl, _⟩ := heq
    obtain ⟨k1, k2⟩ := carries_build hT hwf (hc.legal order es co rfl) hb
    obtain ⟨q1, q2, q3⟩ := send_room (w := { w with conf := c1, shared := { w.shared with heap := hp1 } })
      (Msg.newProg (c1.fillProg p1) co) hroom
    refine ⟨w.conf.layout, ?_, ?_, ?_, ?_⟩
    · rw [q3]; exact h1
    · rw [q1]
      exact h2.snoc (.program co k1 k2 h3.pre (fun n hn k hk => h4 n hn k hk) rfl)
    · rw [q2]; exact confLay_build hwf hb
    · show Knows T _ (World.send _ _).conf ((t.pending ++ [Update.program (syncPlaying T w.conf order es)]).foldl Playing.update t.now)
      rw [hsnoc, q2]; exact agree_build hwf hb _
  | monitor n ins outs =>
    simp only [World.step, Conf.monitor, Option.some.injEq, Prod.mk.injEq] at hs
    obtain ⟨rfl, _⟩ := hs
    cases hni : w.conf.instanceOf n with
    | none =>
      have ht : t.step T w.conf (.monitor n ins outs : EOp N V A M) = t := by simp [Track.step, asks, hni]
      rw [ht]
      exact ⟨lc, h0⟩
    | some ni =>
      have hroom := hc.room (by simp [asks, hni])
      obtain ⟨hli, hlo⟩ := hc.watch n ins outs rfl
      have ht : t.step T w.conf (.monitor n ins outs : EOp N V A M) = { t with pending := t.pending ++ [.monitor n ins outs] } := by
        simp [Track.step, asks, hni]
      rw [ht]
      obtain ⟨i1, i2, i3⟩ := h3.inst n ni hni
      have hidx : monitorBufs ni ins outs = lc.monIdx T n ins outs := by
        unfold monitorBufs Layout.monIdx NodeInstance.inLocal2Global NodeInstance.outLocal2Global
        rw [List.take_of_length_le (by omega), List.take_of_length_le (by omega)]
        simp only [i2, i3, List.length_map, hli, hlo, Nat.add_lt_add_iff_left]
        simp [Layout.inIdx]
      obtain ⟨q1, q2, q3⟩ := send_room (w := w) (Msg.setMonitor (monitorBufs ni ins outs)) hroom
      refine ⟨lc, ?_, ?_, ?_, ?_⟩
      · show Plays T le t.now (World.send _ _).exec.prog
        rw [q3]; exact h1
      · show Match T le t.now (World.send _ _).queue _ _
        rw [q1, hidx]
        exact h2.snoc (.monitor i1 hli hlo)
      · show ConfLay T lc (World.send _ _).conf
        rw [q2]; exact h3
      · show Knows T lc (World.send _ _).conf ((t.pending ++ [Update.monitor n ins outs]).foldl Playing.update t.now)
        rw [hsnoc, q2]; exact h4.congr rfl rfl
  | injectMidi ev =>
    simp only [World.step, Option.some.injEq, Prod.mk.injEq] at hs
    obtain ⟨rfl, _⟩ := hs
    have ht : t.step T w.conf (.injectMidi ev : EOp N V A M) = t := by simp [Track.step, asks]
    rw [ht]
    exact ⟨lc, send_noise _ (fun l now => .midi _) h0⟩
  | poll =>
    simp only [World.step] at hs
    obtain ⟨e', s', r1, r2⟩ := applyAll_plays h2 h1 hacc.refs hacc.fresh (account_cnt hacc)
    rw [r1] at hs
    simp only [Option.map_some, Option.some.injEq, Prod.mk.injEq] at hs
    obtain ⟨rfl, _⟩ := hs
    exact ⟨lc, r2, .nil _ _, h3, h4⟩
  | process nf =>
    simp only [World.step] at hs
    obtain ⟨⟨e', h', st', r⟩, hb, heq⟩ := Option.map_eq_some_iff.1 hs
    simp only [Prod.mk.injEq] at heq
    obtain ⟨rfl, _⟩ := heq
    have ht : t.step T w.conf (.process nf : EOp N V A M) = t := by simp [Track.step, asks]
    rw [ht]
    exact ⟨lc, (process_plays run h1 (account_owned hacc) hb).1, h2, h3, h4⟩
  | dropOne =>
    have ht : t.step T w.conf (.dropOne : EOp N V A M) = t := by simp [Track.step, asks]
    rw [ht]
    simp only [World.step] at hs
    split at hs
    · cases hs; exact ⟨lc, h0⟩
    · cases hs; exact ⟨lc, h1, h2, h3, h4⟩
  | setSlope k =>
    have ht : t.step T w.conf (.setSlope k : EOp N V A M) = t := by simp [Track.step, asks]
    rw [ht]
    cases hs
    exact ⟨lc, h1, h2, h3, h4⟩

theorem sim_step {T : NodeTable N V A} (hT : ∀ n, T.inCount n ≤ 32) {a0 : A}
    {run : σ → CallIn N V A → σ × (Nat → Block V)}
    {w w' : World N V A M σ} {t : Track N V A} {op : EOp N V A M} {out : Option (BlockResult N V A)}
    (hwf : ConfWF w.conf) (hacc : Account w) (h : Sim T w t) (hc : Careful T w op)
    (hs : w.step T a0 run op = some (w', out)) : Sim T w' (t.step T w.conf op) := by
  obtain ⟨le, lc, h⟩ := h
  exact ⟨_, simAt_step hT hwf hacc h hc hs⟩

end

end HexoDSP.Engine
