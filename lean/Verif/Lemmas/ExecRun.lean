import Verif.Lemmas.NodeProg
/-! What one block of the program does. -/

set_option linter.unusedSectionVars false

namespace HexoDSP.Engine
open EngineSpec

variable {N V A M σ : Type}

theorem slice_spec {α : Type} {l : List α} {r : Nat × Nat} (h : r.1 ≤ r.2 ∧ r.2 ≤ l.length) :
    ∃ s, slice l r = some s ∧ s.length = r.2 - r.1 ∧
      ∀ k, s[k]? = if r.1 + k < r.2 then l[r.1 + k]? else none := by
  refine ⟨(l.take r.2).drop r.1, if_pos h, by simp; omega, ?_⟩
  intro k
  rw [List.getElem?_drop, List.getElem?_take]

theorem mapM_id_spec {α : Type} (l : List (Option α)) (f : Nat → α) :
    (∀ k, k < l.length → l[k]? = some (some (f k))) →
    ∃ s, l.mapM id = some s ∧ s.length = l.length ∧ ∀ k, k < l.length → s[k]? = some (f k) := by
  induction l generalizing f with
  | nil => intro _; exact ⟨[], rfl, rfl, fun k hk => by simp at hk⟩
  | cons a l ih =>
    intro h
    have h0 := h 0 (by simp)
    simp only [List.getElem?_cons_zero, Option.some.injEq] at h0
    obtain ⟨s, h1, h2, h3⟩ := ih (fun k => f (k + 1)) (fun k hk => by
      have := h (k + 1) (by simpa using hk)
      simpa using this)
    refine ⟨f 0 :: s, ?_, by simp [h2], ?_⟩
    · rw [List.mapM_cons, h0, h1]; rfl
    · intro k hk
      cases k with
      | zero => rfl
      | succ k => simpa using h3 k (by simpa using hk)

theorem write_data (h : Heap V) (b c : BufId) (blk : Block V) :
    (h.write b blk).data c = if c = b then blk else h.data c := rfl

theorem writeOuts_spec (res : Nat → Block V) (bs : List BufId) :
    ∀ (h : Heap V) (k : Nat), bs.Nodup →
      (∀ i b, bs[i]? = some b → (writeOuts h res k bs).data b = res (k + i)) ∧
      (∀ b, b ∉ bs → (writeOuts h res k bs).data b = h.data b) ∧
      (writeOuts h res k bs).next = h.next ∧ (writeOuts h res k bs).freed = h.freed := by
  induction bs with
  | nil => intro h k _; exact ⟨fun i b hb => by simp at hb, fun _ _ => rfl, rfl, rfl⟩
  | cons a bs ih =>
    intro h k hnd
    obtain ⟨hna, hnd'⟩ := List.nodup_cons.1 hnd
    obtain ⟨h1, h2, h3, h4⟩ := ih (h.write a (res k)) (k + 1) hnd'
    refine ⟨?_, ?_, h3, h4⟩
    · intro i b hb
      cases i with
      | zero =>
        simp only [List.getElem?_cons_zero, Option.some.injEq] at hb
        subst hb
        show (writeOuts (h.write a (res k)) res (k + 1) bs).data a = _
        rw [h2 a hna, write_data, if_pos rfl]; rfl
      | succ i =>
        rw [List.getElem?_cons_succ] at hb
        show (writeOuts (h.write a (res k)) res (k + 1) bs).data b = _
        rw [h1 i b hb]
        congr 1
        omega
    · intro b hb
      simp only [List.mem_cons, not_or] at hb
      show (writeOuts (h.write a (res k)) res (k + 1) bs).data b = _
      rw [h2 b hb.2, write_data, if_neg hb.1]

variable [Add V] [Mul V]

theorem process_data (m : ModOp V) (nf : Nat) (h : Heap V) (b : BufId) (hb : b ≠ m.modbuf) :
    (m.process nf h).data b = h.data b := by
  unfold ModOp.process
  split
  · rw [write_data, if_neg hb]
  · rfl

theorem process_meta (m : ModOp V) (nf : Nat) (h : Heap V) :
    (m.process nf h).next = h.next ∧ (m.process nf h).freed = h.freed := by
  unfold ModOp.process
  split <;> exact ⟨rfl, rfl⟩

theorem foldMods_spec (nf : Nat) (mods : List (ModOp V)) :
    ∀ (h : Heap V), (mods.map (fun m => m.modbuf)).Nodup →
      (∀ b, b ∉ mods.map (fun m => m.modbuf) →
        (mods.foldl (fun h m => m.process nf h) h).data b = h.data b) ∧
      (∀ mo ∈ mods, ∀ i o, mo.inbuf = some i → mo.outbuf = some o →
        i ∉ mods.map (fun m => m.modbuf) → o ∉ mods.map (fun m => m.modbuf) →
        ∀ f, f < nf → (mods.foldl (fun h m => m.process nf h) h).data mo.modbuf f =
          h.data i f + mo.amount * h.data o f) ∧
      (mods.foldl (fun h m => m.process nf h) h).next = h.next ∧
      (mods.foldl (fun h m => m.process nf h) h).freed = h.freed := by
  induction mods with
  | nil => intro h _; exact ⟨fun _ _ => rfl, fun _ h => by simp at h, rfl, rfl⟩
  | cons a mods ih =>
    intro h hnd
    rw [List.map_cons] at hnd
    obtain ⟨hna, hnd'⟩ := List.nodup_cons.1 hnd
    obtain ⟨h1, h2, h3, h4⟩ := ih (a.process nf h) hnd'
    have hm := process_meta a nf h
    refine ⟨?_, ?_, ?_, ?_⟩
    · intro b hb
      simp only [List.map_cons, List.mem_cons, not_or] at hb
      rw [List.foldl_cons, h1 b hb.2, process_data a nf h b hb.1]
    · intro mo hmo i o hi ho hin hon f hf
      simp only [List.map_cons, List.mem_cons, not_or] at hin hon
      rw [List.foldl_cons]
      rcases List.mem_cons.1 hmo with hmo | hmo
      · subst hmo
        rw [h1 _ hna]
        simp only [ModOp.process, hi, ho, write_data, if_true, hf]
      · rw [h2 mo hmo i o hi ho hin.2 hon.2 f hf, process_data a nf h i hin.1, process_data a nf h o hon.1]
    · rw [List.foldl_cons, h3, hm.1]
    · rw [List.foldl_cons, h4, hm.2]

/-- What a node must find in its input buffer for global input `g`. -/
def InputIs (p : NodeProg N V A) (nf : Nat) (H : Heap V) (g : Nat)
    (acc : Option (Nat × Nat × Option Nat)) (blk : Block V) : Prop :=
  match acc with
  | none => ∃ ib, p.inp[g]? = some ib ∧ blk = H.data ib
  | some io =>
    match io.2.2 with
    | none => ∃ ob, p.out[io.1]? = some ob ∧ blk = H.data ob
    | some m => ∃ (mo : ModOp V) (ib ob : BufId), p.modops[m]? = some mo ∧ p.inp[g]? = some ib ∧
        p.out[io.1]? = some ob ∧ ∀ f, f < nf → blk f = H.data ib f + mo.amount * H.data ob f

/-- The call made for an operation, in terms of the heap. -/
structure CallOK (p : NodeProg N V A) (nf : Nat) (H : Heap V) (op : NodeOp N) (c : Call N V A) : Prop where
  node : c.node = op.node
  nframes : c.nframes = nf
  inConnected : c.inConnected = op.inConnected
  outConnected : c.outConnected = op.outConnected
  atoms : ∀ k : Nat, c.atoms[k]? = if op.atR.1 + k < op.atR.2 then p.atoms[op.atR.1 + k]? else none
  params : ∀ k : Nat, c.params[k]? =
    if op.inR.1 + k < op.inR.2 then (p.inp[op.inR.1 + k]?).map H.data else none
  outputs : ∀ k : Nat, c.outputs[k]? =
    if op.outR.1 + k < op.outR.2 then (p.out[op.outR.1 + k]?).map H.data else none
  oldLen : c.oldOut.length = op.outR.2 - op.outR.1
  inLen : c.inputs.length = op.inR.2 - op.inR.1
  inputs : ∀ k, op.inR.1 + k < op.inR.2 → ∃ blk, c.inputs[k]? = some blk ∧
    InputIs p nf H (op.inR.1 + k) (lastConn op.inputs (op.inR.1 + k)) blk
  cur : ∀ k, op.inR.1 + k < op.inR.2 → ∃ b, p.curInp[op.inR.1 + k]? = some (some b) ∧
    wantBuf p (op.inR.1 + k) (lastConn op.inputs (op.inR.1 + k)) = some b ∧ c.inputs[k]? = some (H.data b)

theorem getElem?_inj {α : Type} {l : List α} (h : l.Nodup) {i j : Nat} {a : α}
    (hi : l[i]? = some a) (hj : l[j]? = some a) : i = j := by
  exact (List.getElem?_inj (List.getElem?_eq_some_iff.1 hi).1 h).1 (hi.trans hj.symm)

/-- The three kinds of buffers do not overlap. -/
structure Sep (p : NodeProg N V A) : Prop where
  inp : p.inp.Nodup
  out : p.out.Nodup
  mod : (p.modops.map (fun m => m.modbuf)).Nodup
  inOut : ∀ b ∈ p.inp, b ∉ p.out
  inMod : ∀ b ∈ p.inp, b ∉ p.modops.map (fun m => m.modbuf)
  outMod : ∀ b ∈ p.out, b ∉ p.modops.map (fun m => m.modbuf)

theorem sep_of_owned {p : NodeProg N V A} (h : p.owned.Nodup) : Sep p := by
  unfold NodeProg.owned at h
  obtain ⟨h1, h2, h3⟩ := List.nodup_append.1 h
  obtain ⟨h4, h5, h6⟩ := List.nodup_append.1 h1
  exact ⟨h4, h5, h2, fun b hb hb' => h6 b hb b hb' rfl,
    fun b hb hb' => h3 b (by simp [hb]) b hb' rfl, fun b hb hb' => h3 b (by simp [hb]) b hb' rfl⟩

theorem drop_take_sublist {α : Type} (l : List α) (a b : Nat) : ((l.take b).drop a).Sublist l :=
  (List.drop_sublist _ _).trans (List.take_sublist _ _)

theorem slice_sublist {α : Type} {l s : List α} {r : Nat × Nat} (h : slice l r = some s) : s.Sublist l := by
  unfold slice at h
  split at h
  · cases h; exact drop_take_sublist _ _ _
  · cases h

/-- Agreement of two heaps outside the buffers written by an operation. -/
def FrameOp (p : NodeProg N V A) (op : NodeOp N) (h h' : Heap V) : Prop :=
  (∀ b, (∀ o, Within op.outR o → p.out[o]? ≠ some b) →
    (∀ m mo, Within op.modR m → p.modops[m]? = some mo → mo.modbuf ≠ b) → h'.data b = h.data b) ∧ h'.next = h.next ∧ h'.freed = h.freed

theorem runOp_spec {run : σ → CallIn N V A → σ × (Nat → Block V)} {nf : Nat} {p : NodeProg N V A}
    (hp : ProgOK p) (hl : Linked p) {op : NodeOp N} (hop : op ∈ p.prog) (a : RunAcc N V A σ) :
    ∃ (a' : RunAcc N V A σ) (c : Call N V A), runOp run nf p a op = some a' ∧
      a'.calls = a.calls ++ [c] ∧ CallOK p nf a'.heap op c ∧ FrameOp p op a.heap a'.heap ∧
      a'.st = (run a.st c.toCallIn).1 ∧
      c.outputs = (List.range c.oldOut.length).map (run a.st c.toCallIn).2 ∧
      a'.outFb = a.outFb.take op.outR.1 ++ c.outputs.map (fun b => b (nf - 1)) ++ a.outFb.drop op.outR.2 := by
  have hsep := sep_of_owned hp.owned
  obtain ⟨mods, m1, m2, m3⟩ := slice_spec (hp.ops.modB op hop)
  obtain ⟨params, p1, p2, p3⟩ := slice_spec (hp.ops.inB op hop)
  obtain ⟨atoms, t1, t2, t3⟩ := slice_spec (hp.ops.atB op hop)
  obtain ⟨cur, c1, c2, c3⟩ := slice_spec (l := p.curInp) (r := op.inR)
    (by rw [hp.curLen]; exact hp.ops.inB op hop)
  obtain ⟨outs, o1, o2, o3⟩ := slice_spec (hp.ops.outB op hop)
  have hinB := hp.ops.inB op hop
  have houtB := hp.ops.outB op hop
  -- the buffers connected to the inputs
  have hwant : ∀ k, k < cur.length → ∃ b, wantBuf p (op.inR.1 + k) (lastConn op.inputs (op.inR.1 + k)) = some b := by
    intro k hk
    have hw : Within op.inR (op.inR.1 + k) := ⟨by omega, by omega⟩
    cases hlc : lastConn op.inputs (op.inR.1 + k) with
    | none => exact ⟨p.inp[op.inR.1 + k]'(by omega), List.getElem?_eq_getElem (by omega)⟩
    | some io =>
      obtain ⟨q1, q2, q3⟩ := hp.ops.conn op hop io (lastConn_mem hlc).1
      cases hio : io.2.2 with
      | none => exact ⟨p.out[io.1], by simp only [wantBuf, hio]; exact List.getElem?_eq_getElem q1⟩
      | some m =>
        have hm := (q3 m hio).2
        have hmb := (hp.ops.modB op hop).2
        have hlt : m < p.modops.length := by omega
        exact ⟨p.modops[m].modbuf, by
          simp only [wantBuf, hio]; rw [List.getElem?_eq_getElem hlt]; rfl⟩
  have hcur : ∀ k, k < cur.length → cur[k]? =
      some (some ((wantBuf p (op.inR.1 + k) (lastConn op.inputs (op.inR.1 + k))).getD 0)) := by
    intro k hk
    have hw : Within op.inR (op.inR.1 + k) := ⟨by omega, by omega⟩
    obtain ⟨b, hb⟩ := hwant k hk
    rw [c3, if_pos (by omega), (hl op hop _ hw).1, hb]
    rfl
  obtain ⟨ins, i1, i2, i3⟩ := mapM_id_spec cur _ hcur
  have hmsub : (mods.map (fun m => m.modbuf)).Sublist (p.modops.map (fun m => m.modbuf)) :=
    (slice_sublist m1).map _
  obtain ⟨f1, f2, f3, f4⟩ := foldMods_spec nf mods a.heap (hmsub.nodup hsep.mod)
  have houtsub := slice_sublist o1
  unfold runOp
  simp only [m1, p1, t1, c1, o1, i1, Option.bind_some]
  generalize hh : mods.foldl (fun h m => m.process nf h) a.heap = h1 at *
  generalize hci : CallIn.mk op.node nf op.inConnected op.outConnected (params.map h1.data) atoms
    (ins.map h1.data) (outs.map h1.data) = ci
  obtain ⟨w1, w2, w3, w4⟩ := writeOuts_spec (run a.st ci).2 outs h1 0 (houtsub.nodup hsep.out)
  generalize hh2 : writeOuts h1 (run a.st ci).2 0 outs = h2 at *
  -- unchanged buffers
  have hinp : ∀ b ∈ p.inp, h2.data b = h1.data b ∧ h1.data b = a.heap.data b := by
    intro b hb
    exact ⟨w2 b (fun hb' => hsep.inOut b hb (houtsub.subset hb')),
      f1 b (fun hb' => hsep.inMod b hb (hmsub.subset hb'))⟩
  have hout : ∀ o b, p.out[o]? = some b → ¬ Within op.outR o → h2.data b = h1.data b ∧ h1.data b = a.heap.data b := by
    intro o b hb hno
    refine ⟨w2 b ?_, f1 b (fun hb' => hsep.outMod b (List.mem_of_getElem? hb) (hmsub.subset hb'))⟩
    intro hb'
    obtain ⟨k, hk⟩ := List.getElem?_of_mem hb'
    rw [o3] at hk
    split at hk
    · have := getElem?_inj hsep.out hk hb
      exact hno ⟨by omega, by omega⟩
    · cases hk
  refine ⟨_, { ci with outputs := outs.map h2.data }, rfl, rfl, ?_, ?_, rfl, ?_, ?_⟩
  · subst hci
    refine ⟨rfl, rfl, rfl, rfl, ?_, ?_, ?_, ?_, ?_, ?_, ?_⟩
    · intro k; exact t3 k
    · intro k
      simp only [List.getElem?_map, p3]
      split
      · rename_i hk
        cases hb : p.inp[op.inR.1 + k]? with
        | none => rfl
        | some b => simp [(hinp b (List.mem_of_getElem? hb)).1]
      · rfl
    · intro k
      simp only [List.getElem?_map, o3]
      split <;> rfl
    · simp [o2]
    · simp [i2, c2]
    · intro k hk
      have hkl : k < cur.length := by omega
      obtain ⟨b, hb⟩ := hwant k hkl
      have hw : Within op.inR (op.inR.1 + k) := ⟨by omega, by omega⟩
      refine ⟨h1.data b, ?_, ?_⟩
      · simp only [List.getElem?_map, i3 k hkl, hb]; rfl
      · have hlk := (hl op hop _ hw).2
        cases hlc : lastConn op.inputs (op.inR.1 + k) with
        | none =>
          rw [hlc] at hb
          exact ⟨b, hb, ((hinp b (List.mem_of_getElem? hb)).1).symm⟩
        | some io =>
          have hmem := (lastConn_mem hlc).1
          obtain ⟨q1, q2, q3⟩ := hp.ops.conn op hop io hmem
          have hns := hp.ops.noSelf op hop io hmem
          rw [hlc] at hb hlk
          cases hio : io.2.2 with
          | none =>
            simp only [wantBuf, hio] at hb
            simp only [InputIs, hio]
            exact ⟨b, hb, ((hout io.1 b hb hns).1).symm⟩
          | some m =>
            obtain ⟨mo, k1, k2, k3⟩ := hlk io m rfl hio
            simp only [wantBuf, hio, k1, Option.map_some, Option.some.injEq] at hb
            subst hb
            simp only [InputIs, hio]
            have e1 : p.inp[op.inR.1 + k]? = some (p.inp[op.inR.1 + k]'(by omega)) := List.getElem?_eq_getElem (by omega)
            have e2 : p.out[io.1]? = some p.out[io.1] := List.getElem?_eq_getElem q1
            refine ⟨mo, _, _, k1, e1, e2, ?_⟩
            intro f hf
            have hmR := q3 m hio
            have hmm : mo ∈ mods := by
              have h1' := hmR.1; have h2' := hmR.2
              have : mods[m - op.modR.1]? = some mo := by
                rw [m3, if_pos (by omega), show op.modR.1 + (m - op.modR.1) = m by omega, k1]
              exact List.mem_of_getElem? this
            have hib : p.inp[op.inR.1 + k]'(by omega) ∈ p.inp := List.getElem_mem _
            have hob : p.out[io.1] ∈ p.out := List.getElem_mem _
            rw [f2 mo hmm _ _ (k2.trans e1) (k3.trans e2)
              (fun hb' => hsep.inMod _ hib (hmsub.subset hb'))
              (fun hb' => hsep.outMod _ hob (hmsub.subset hb')) f hf]
            rw [(hinp _ hib).1, (hinp _ hib).2, (hout io.1 _ e2 hns).1, (hout io.1 _ e2 hns).2]
    · intro k hk
      have hkl : k < cur.length := by omega
      obtain ⟨b, hb⟩ := hwant k hkl
      have hw : Within op.inR (op.inR.1 + k) := ⟨by omega, by omega⟩
      refine ⟨b, by rw [(hl op hop _ hw).1, hb], hb, ?_⟩
      have hsame : h2.data b = h1.data b := by
        cases hlc : lastConn op.inputs (op.inR.1 + k) with
        | none =>
          rw [hlc] at hb
          exact (hinp b (List.mem_of_getElem? hb)).1
        | some io =>
          have hmem := (lastConn_mem hlc).1
          have hns := hp.ops.noSelf op hop io hmem
          rw [hlc] at hb
          cases hio : io.2.2 with
          | none =>
            simp only [wantBuf, hio] at hb
            exact (hout io.1 b hb hns).1
          | some m =>
            simp only [wantBuf, hio] at hb
            obtain ⟨mo, hmo, rfl⟩ := Option.map_eq_some_iff.1 hb
            refine w2 _ (fun hb' => hsep.outMod _ (houtsub.subset hb') ?_)
            exact List.mem_map_of_mem (List.mem_of_getElem? hmo)
      simp only [List.getElem?_map, i3 k hkl, hb, hsame]
      rfl
  · refine ⟨?_, w3.trans f3, w4.trans f4⟩
    intro b hb1 hb2
    show h2.data b = _
    rw [w2 b, f1 b]
    · intro hb'
      obtain ⟨mo, hmo, rfl⟩ := List.mem_map.1 hb'
      obtain ⟨k, hk⟩ := List.getElem?_of_mem hmo
      rw [m3] at hk
      split at hk
      · exact hb2 _ mo ⟨by omega, by omega⟩ hk rfl
      · cases hk
    intro hb'
    obtain ⟨k, hk⟩ := List.getElem?_of_mem hb'
    rw [o3] at hk
    split at hk
    · exact hb1 _ ⟨by omega, by omega⟩ hk
    · cases hk
  · subst hci
    simp only [List.length_map]
    apply List.ext_getElem?
    intro k
    simp only [List.getElem?_map]
    by_cases hk : k < outs.length
    · rw [List.getElem?_range hk]
      rw [List.getElem?_eq_getElem hk]
      simp only [Option.map_some]
      rw [w1 k _ (List.getElem?_eq_getElem hk)]
      simp
    · rw [List.getElem?_eq_none (by omega), List.getElem?_eq_none (by simp; omega)]
      rfl
  · simp only [List.map_map]
    rfl

theorem runs_snoc (run : σ → CallIn N V A → σ × (Nat → Block V)) (cs : List (Call N V A)) :
    ∀ (st st1 : σ) (c : Call N V A), Runs run st cs st1 →
      c.outputs = (List.range c.oldOut.length).map (run st1 c.toCallIn).2 →
      Runs run st (cs ++ [c]) (run st1 c.toCallIn).1 := by
  induction cs with
  | nil => intro st st1 c h1 h2; simp only [Runs] at h1; subst h1; exact ⟨h2, rfl⟩
  | cons a cs ih => intro st st1 c h1 h2; exact ⟨h1.1, ih _ _ _ h1.2 h2⟩

theorem callOK_frame {p : NodeProg N V A} {nf : Nat} {H H' : Heap V} {op : NodeOp N} {c : Call N V A}
    (h : CallOK p nf H op c) (hi : ∀ b ∈ p.inp, H'.data b = H.data b)
    (ho : ∀ o b, p.out[o]? = some b → (Within op.outR o ∨ ∃ io ∈ op.inputs, io.1 = o) →
      H'.data b = H.data b)
    (hm : ∀ m mo, p.modops[m]? = some mo → (∃ io ∈ op.inputs, io.2.2 = some m) → H'.data mo.modbuf = H.data mo.modbuf) :
    CallOK p nf H' op c := by
  refine ⟨h.node, h.nframes, h.inConnected, h.outConnected, h.atoms, ?_, ?_, h.oldLen, h.inLen, ?_, ?_⟩
  · intro k
    rw [h.params k]
    split
    · cases hb : p.inp[op.inR.1 + k]? with
      | none => rfl
      | some b => simp [hi b (List.mem_of_getElem? hb)]
    · rfl
  · intro k
    rw [h.outputs k]
    split
    · cases hb : p.out[op.outR.1 + k]? with
      | none => rfl
      | some b => simp [ho _ b hb (Or.inl ⟨by omega, by omega⟩)]
    · rfl
  · intro k hk
    obtain ⟨blk, h1, h2⟩ := h.inputs k hk
    refine ⟨blk, h1, ?_⟩
    cases hlc : lastConn op.inputs (op.inR.1 + k) with
    | none =>
      rw [hlc] at h2
      obtain ⟨ib, q1, q2⟩ := h2
      exact ⟨ib, q1, q2.trans (hi ib (List.mem_of_getElem? q1)).symm⟩
    | some io =>
      rw [hlc] at h2
      have hmem := (lastConn_mem hlc).1
      cases hio : io.2.2 with
      | none =>
        simp only [InputIs, hio] at h2 ⊢
        obtain ⟨ob, q1, q2⟩ := h2
        exact ⟨ob, q1, q2.trans (ho io.1 ob q1 (Or.inr ⟨io, hmem, rfl⟩)).symm⟩
      | some m =>
        simp only [InputIs, hio] at h2 ⊢
        obtain ⟨mo, ib, ob, q1, q2, q3, q4⟩ := h2
        refine ⟨mo, ib, ob, q1, q2, q3, fun f hf => ?_⟩
        rw [hi ib (List.mem_of_getElem? q2), ho io.1 ob q3 (Or.inr ⟨io, hmem, rfl⟩)]
        exact q4 f hf
  · intro k hk
    obtain ⟨b, h1, h2, h3⟩ := h.cur k hk
    refine ⟨b, h1, h2, ?_⟩
    rw [h3]
    congr 1
    symm
    cases hlc : lastConn op.inputs (op.inR.1 + k) with
    | none =>
      rw [hlc] at h2
      exact hi b (List.mem_of_getElem? h2)
    | some io =>
      have hmem := (lastConn_mem hlc).1
      rw [hlc] at h2
      cases hio : io.2.2 with
      | none =>
        simp only [wantBuf, hio] at h2
        exact ho io.1 b h2 (Or.inr ⟨io, hmem, rfl⟩)
      | some m =>
        simp only [wantBuf, hio] at h2
        obtain ⟨mo, hmo, rfl⟩ := Option.map_eq_some_iff.1 h2
        exact hm m mo hmo ⟨io, hmem, hio⟩

/-- State after the operations `pre`. -/
structure RanOK (run : σ → CallIn N V A → σ × (Nat → Block V)) (p : NodeProg N V A) (nf : Nat)
    (h0 : Heap V) (st0 : σ) (pre : List (NodeOp N)) (a : RunAcc N V A σ) : Prop where
  runs : Runs run st0 a.calls a.st
  len : a.calls.length = pre.length
  calls : ∀ (i : Nat) (op : NodeOp N) (c : Call N V A), pre[i]? = some op → a.calls[i]? = some c →
    CallOK p nf a.heap op c
  inp : ∀ b ∈ p.inp, a.heap.data b = h0.data b
  foreign : ∀ b, b ∉ p.out → b ∉ p.modops.map (fun m => m.modbuf) → a.heap.data b = h0.data b
  next : a.heap.next = h0.next
  freed : a.heap.freed = h0.freed
  fbLen : a.outFb.length = p.out.length
  fb : ∀ op ∈ pre, ∀ g, Within op.outR g →
    a.outFb[g]? = (p.out[g]?).map (fun b => a.heap.data b (nf - 1))

theorem runLoop_spec {run : σ → CallIn N V A → σ × (Nat → Block V)} {nf : Nat} {p : NodeProg N V A}
    (hp : ProgOK p) (hl : Linked p) {h0 : Heap V} {st0 : σ} (post : List (NodeOp N)) :
    ∀ (pre : List (NodeOp N)) (a : RunAcc N V A σ), p.prog = pre ++ post →
      RanOK run p nf h0 st0 pre a →
      ∃ a', post.foldlM (runOp run nf p) a = some a' ∧ RanOK run p nf h0 st0 p.prog a' := by
  induction post with
  | nil =>
    intro pre a hpp h
    rw [List.append_nil] at hpp
    exact ⟨a, rfl, by rw [hpp]; exact h⟩
  | cons op post ih =>
    intro pre a hpp h
    have hop : op ∈ p.prog := by rw [hpp]; simp
    have hsep := sep_of_owned hp.owned
    obtain ⟨a1, c, r1, r2, r3, r4, r5, r6, r7⟩ := runOp_spec (run := run) (nf := nf) hp hl hop a
    have houtB := hp.ops.outB op hop
    have hdisj : ∀ q ∈ pre, ∀ g, ¬ (Within q.outR g ∧ Within op.outR g) := by
      have := hp.ops.disj
      rw [hpp] at this
      intro q hq g
      exact ((List.pairwise_append.1 this).2.2 q hq op (by simp) g).1
    have hord : ∀ q ∈ pre, ∀ io ∈ q.inputs, ¬ Within op.outR io.1 := by
      have := hp.ops.order
      rw [hpp] at this
      intro q hq
      exact (List.pairwise_append.1 this).2.2 q hq op (by simp)
    have hinp1 : ∀ b ∈ p.inp, a1.heap.data b = a.heap.data b := by
      intro b hb
      refine r4.1 b (fun o _ hb' => hsep.inOut b hb (List.mem_of_getElem? hb')) (fun m mo _ hmo he => ?_)
      exact hsep.inMod b hb (he ▸ List.mem_map_of_mem (List.mem_of_getElem? hmo))
    have hout1 : ∀ o b, p.out[o]? = some b → ¬ Within op.outR o → a1.heap.data b = a.heap.data b := by
      intro o b hb hno
      refine r4.1 b (fun o' ho' hb' => ?_) (fun m mo _ hmo he =>
        hsep.outMod b (List.mem_of_getElem? hb) (he ▸ List.mem_map_of_mem (List.mem_of_getElem? hmo)))
      have := getElem?_inj hsep.out hb hb'
      subst this; exact hno ho'
    have hmod1 : ∀ m (mo : ModOp V), p.modops[m]? = some mo → ¬ Within op.modR m → a1.heap.data mo.modbuf = a.heap.data mo.modbuf := by
      intro m mo hmo hno
      refine r4.1 _ (fun o' _ hb' => hsep.outMod _ (List.mem_of_getElem? hb') (List.mem_map_of_mem (List.mem_of_getElem? hmo)))
        (fun m' mo' hm' hmo' he => ?_)
      have e1 : (p.modops.map (fun m => m.modbuf))[m]? = some mo.modbuf := by rw [List.getElem?_map, hmo]; rfl
      have e2 : (p.modops.map (fun m => m.modbuf))[m']? = some mo.modbuf := by rw [List.getElem?_map, hmo']; simp [he]
      have := getElem?_inj hsep.mod e1 e2
      subst this; exact hno hm'
    have hdisjM : ∀ q ∈ pre, ∀ g, ¬ (Within q.modR g ∧ Within op.modR g) := by
      have := hp.ops.disj
      rw [hpp] at this
      intro q hq g
      exact ((List.pairwise_append.1 this).2.2 q hq op (by simp) g).2.2
    have hcl : c.outputs.length = op.outR.2 - op.outR.1 := by
      rw [r6]; simp [r3.oldLen]
    have hfbget : ∀ g, a1.outFb[g]? = if Within op.outR g then
        (p.out[g]?).map (fun b => a1.heap.data b (nf - 1)) else a.outFb[g]? := by
      intro g
      have hfl := h.fbLen
      have hl1 : (a.outFb.take op.outR.1).length = op.outR.1 := by simp; omega
      have hl2 : (c.outputs.map (fun b => b (nf - 1))).length = op.outR.2 - op.outR.1 := by simp [hcl]
      rw [r7, List.append_assoc, List.getElem?_append, hl1]
      by_cases h1 : g < op.outR.1
      · rw [if_pos h1, if_neg (fun hw => by have := hw.1; omega), List.getElem?_take, if_pos h1]
      · rw [if_neg h1, List.getElem?_append, hl2]
        by_cases h2 : g < op.outR.2
        · rw [if_pos (by omega), if_pos ⟨by omega, h2⟩, List.getElem?_map, r3.outputs,
            show op.outR.1 + (g - op.outR.1) = g by omega, if_pos h2]
          cases p.out[g]? <;> rfl
        · rw [if_neg (by omega), if_neg (fun hw => h2 hw.2), List.getElem?_drop]
          congr 1; omega
    have key : RanOK run p nf h0 st0 (pre ++ [op]) a1 := by
      refine ⟨?_, ?_, ?_, ?_, ?_, ?_, ?_, ?_, ?_⟩
      · rw [r2, r5]; exact runs_snoc run _ _ _ _ h.runs r6
      · rw [r2]; simp [h.len]
      · intro i o c' hi hc
        rw [r2] at hc
        rw [List.getElem?_append] at hi hc
        rw [h.len] at hc
        split at hi
        · rename_i hlt
          rw [if_pos hlt] at hc
          have hom := List.mem_of_getElem? hi
          refine callOK_frame (h.calls i o c' hi hc) hinp1 ?_ ?_
          · intro g b hb hg
            apply hout1 g b hb
            rcases hg with hg | ⟨io, hio, rfl⟩
            · exact fun hw => hdisj o hom g ⟨hg, hw⟩
            · exact hord o hom io hio
          · rintro m mo hmo ⟨io, hio, hm⟩
            apply hmod1 m mo hmo
            have hop' : o ∈ p.prog := by rw [hpp]; simp [hom]
            exact fun hw => hdisjM o hom m ⟨(hp.ops.conn o hop' io hio).2.2 m hm, hw⟩
        · rename_i hlt
          rw [if_neg hlt] at hc
          cases hk : i - pre.length with
          | zero =>
            simp only [hk, List.getElem?_cons_zero, Option.some.injEq] at hi hc
            subst hi; subst hc
            exact r3
          | succ k => simp [hk] at hi
      · intro b hb; rw [hinp1 b hb, h.inp b hb]
      · intro b hb1 hb2
        rw [r4.1 b (fun o _ hb' => hb1 (List.mem_of_getElem? hb')) (fun m mo _ hmo he =>
          hb2 (he ▸ List.mem_map_of_mem (List.mem_of_getElem? hmo))), h.foreign b hb1 hb2]
      · rw [r4.2.1, h.next]
      · rw [r4.2.2, h.freed]
      · rw [r7]
        have := h.fbLen
        simp [hcl]; omega
      · intro o ho g hg
        rw [hfbget]
        rcases List.mem_append.1 ho with ho | ho
        · rw [if_neg (fun hw => hdisj o ho g ⟨hg, hw⟩), h.fb o ho g hg]
          cases hb : p.out[g]? with
          | none => rfl
          | some b => simp [hout1 g b hb (fun hw => hdisj o ho g ⟨hg, hw⟩)]
        · simp only [List.mem_singleton] at ho
          subst ho
          rw [if_pos hg]
    obtain ⟨a', e1, e2⟩ := ih (pre ++ [op]) a1 (by rw [hpp]; simp) key
    exact ⟨a', by rw [List.foldlM_cons, r1]; exact e1, e2⟩

/-- Running all operations of a well formed, linked program never fails. -/
theorem runAll_spec {run : σ → CallIn N V A → σ × (Nat → Block V)} {nf : Nat} {p : NodeProg N V A}
    (hp : ProgOK p) (hl : Linked p) (h0 : Heap V) (st0 : σ) :
    ∃ a', p.prog.foldlM (runOp run nf p) { heap := h0, st := st0, calls := [], outFb := p.outFb } = some a' ∧
      RanOK run p nf h0 st0 p.prog a' := by
  apply runLoop_spec hp hl p.prog [] _ rfl
  exact ⟨rfl, rfl, fun i op c h => by simp at h, fun _ _ => rfl, fun _ _ _ => rfl, rfl, rfl, hp.fbLen,
    fun op h => by simp at h⟩

end HexoDSP.Engine
