import Verif.Spec.IoNodes
import Verif.Lemmas.PatchTimed
/-!
# Lemmas about the nodes between the engine and the sound card
-/

set_option linter.unusedSectionVars false

namespace HexoDSP.IoProps
open HexoDSP.Table HexoDSP.Engine HexoDSP.EngineSpec HexoDSP.IoNodes
open HexoDSP.Repr (SAtom)

variable {M τ : Type} {G : Gain} {other : τ → In → τ × (Nat → Block ℝ)}

theorem volume_eq (x : ℝ) : Curve.denorm G .vol x = volume G x := by
  show G.toCoef _ = G.toCoef _
  congr 1; ring

theorem gain_eq (x : ℝ) : Curve.denorm G .gain x = gain G x := by
  show G.toCoef _ = G.toCoef _
  congr 1; ring

/-! ## The node of each type -/

theorem run_amp {h : Host τ} {c : In} (hn : c.node.Is "amp") : run G other h c = (h, amp G c) := if_pos hn

theorem run_mix3 {h : Host τ} {c : In} (hn : c.node.Is "mix3") : run G other h c = (h, mix3 G c) := by
  have hn' : (row c.node.kind).name = "mix3" := hn
  unfold run
  rw [if_neg (by rw [hn']; decide), if_pos hn']

theorem run_inp {h : Host τ} {c : In} (hn : c.node.Is "inp") : run G other h c = (h, inp G h c) := by
  have hn' : (row c.node.kind).name = "inp" := hn
  unfold run
  rw [if_neg (by rw [hn']; decide), if_neg (by rw [hn']; decide), if_pos hn']

theorem run_out {h : Host τ} {c : In} (hn : c.node.Is "out") : run G other h c = (out G h c, fun _ _ => 0) := by
  have hn' : (row c.node.kind).name = "out" := hn
  unfold run
  rw [if_neg (by rw [hn']; decide), if_neg (by rw [hn']; decide), if_neg (by rw [hn']; decide), if_pos hn']

theorem run_inp_same (h : Host τ) (c : In) : (run G other h c).1.inp = h.inp := by
  unfold run
  split
  · rfl
  split
  · rfl
  split
  · rfl
  split
  · simp only [out, Host.write]; split <;> rfl
  · rfl

theorem run_out_same {h : Host τ} {c : In} (hn : ¬ c.node.Is "out") : (run G other h c).1.out = h.out := by
  unfold run
  split
  · rfl
  split
  · rfl
  split
  · rfl
  split
  · rename_i hh; exact absurd hh hn
  · rfl

theorem out_eq (h : Host τ) (c : In) (ch f : Nat) : (out G h c).out ch f =
    if ch = 0 ∧ f < c.nframes then volume G (inAt c 2 f) * inAt c 0 f
    else if ch = 1 ∧ f < c.nframes then volume G (inAt c 2 f) * (if setAt c 0 > 0 then inAt c 0 f else inAt c 1 f)
    else h.out ch f := by
  unfold out
  simp only [volume_eq]
  split <;> simp only [Host.write] <;> by_cases h0 : ch = 0 <;> by_cases h1 : ch = 1 <;> by_cases hf : f < c.nframes <;> simp_all

theorem run_keep {h : Host τ} {c : In} {ch f : Nat} (hk : 2 ≤ ch ∨ c.nframes ≤ f) : (run G other h c).1.out ch f = h.out ch f := by
  by_cases hn : c.node.Is "out"
  · rw [run_out hn]
    show (out G h c).out ch f = _
    rw [out_eq, if_neg (by omega), if_neg (by omega)]
  · rw [run_out_same hn]

/-! ## A block -/

section
variable {N V A σ : Type} {rn : σ → CallIn N V A → σ × (Nat → Block V)}

theorem runs_append : ∀ {pre post : List (Call N V A)} {st st' : σ}, Runs rn st (pre ++ post) st' → ∃ st1, Runs rn st pre st1 ∧ Runs rn st1 post st'
  | [], post, st, st', h => ⟨st, rfl, h⟩
  | c :: pre, post, st, st', h => by
    obtain ⟨h1, h2⟩ := h
    obtain ⟨st1, a, b⟩ := runs_append h2
    exact ⟨st1, ⟨h1, a⟩, b⟩

end

theorem runs_inp : ∀ {cs : List (Call Node ℝ (SAtom ℝ))} {st st' : Host τ}, Runs (run G other) st cs st' → st'.inp = st.inp
  | [], st, st', h => by cases h; rfl
  | c :: cs, st, st', h => by rw [runs_inp h.2, run_inp_same]

theorem runs_silent : ∀ {cs : List (Call Node ℝ (SAtom ℝ))} {st st' : Host τ}, Runs (run G other) st cs st' → (∀ c ∈ cs, ¬ c.node.Is "out") → st'.out = st.out
  | [], st, st', h, _ => by cases h; rfl
  | c :: cs, st, st', h, hn => by rw [runs_silent h.2 (fun c hc => hn c (List.mem_cons_of_mem _ hc)), run_out_same (hn c List.mem_cons_self)]

theorem runs_keep {ch f nf : Nat} (hk : 2 ≤ ch ∨ nf ≤ f) : ∀ {cs : List (Call Node ℝ (SAtom ℝ))} {st st' : Host τ}, Runs (run G other) st cs st' →
    (∀ c ∈ cs, c.nframes = nf) → st'.out ch f = st.out ch f
  | [], st, st', h, _ => by cases h; rfl
  | c :: cs, st, st', h, hn => by
    rw [runs_keep hk h.2 (fun c hc => hn c (List.mem_cons_of_mem _ hc)), run_keep]
    rw [hn c List.mem_cons_self]; exact hk

theorem runs_mem {cs : List (Call Node ℝ (SAtom ℝ))} {st st' : Host τ} (h : Runs (run G other) st cs st') {c : Call Node ℝ (SAtom ℝ)} (hc : c ∈ cs) :
    ∃ st1, st1.inp = st.inp ∧ c.outputs = (List.range c.oldOut.length).map (run G other st1 c.toCallIn).2 := by
  obtain ⟨pre, post, rfl⟩ := List.append_of_mem hc
  obtain ⟨st1, h1, h2⟩ := runs_append h
  exact ⟨st1, runs_inp h1, h2.1⟩

theorem rows_amp : ∀ k : Kind, (row k).name = "amp" → row k = row_amp := by decide +kernel
theorem rows_mix3 : ∀ k : Kind, (row k).name = "mix3" → row k = row_mix3 := by decide +kernel
theorem rows_inp : ∀ k : Kind, (row k).name = "inp" → row k = row_inp := by decide +kernel
theorem rows_out : ∀ k : Kind, (row k).name = "out" → row k = row_out := by decide +kernel

theorem inCount_le (n : Node) : (table G).inCount n ≤ 32 := by
  have : ∀ k : Kind, (row k).params.length ≤ 32 := by decide +kernel
  exact this n.kind

theorem len1 {α : Type} {l : List α} (h : l.length = 1) : ∃ a, l = [a] := List.length_eq_one_iff.1 h
theorem len2 {α : Type} {l : List α} (h : l.length = 2) : ∃ a b, l = [a, b] := List.length_eq_two.1 h
theorem len3 {α : Type} {l : List α} (h : l.length = 3) : ∃ a b c, l = [a, b, c] := List.length_eq_three.1 h
theorem len7 {α : Type} {l : List α} (h : l.length = 7) : ∃ a b c d e f g, l = [a, b, c, d, e, f, g] := by
  match l, h with
  | [a, b, c, d, e, f, g], _ => exact ⟨a, b, c, d, e, f, g, rfl⟩

theorem outs_len {cs : List (Call Node ℝ (SAtom ℝ))} {st st' : Host τ} (h : Runs (run G other) st cs st') {c : Call Node ℝ (SAtom ℝ)} (hc : c ∈ cs) :
    c.outputs.length = c.oldOut.length := by
  obtain ⟨st1, -, h1⟩ := runs_mem h hc
  rw [h1, List.length_map, List.length_range]

theorem sounds_of_runs {pl : Playing Node ℝ (SAtom ℝ)} {nf : Nat} {cs : List (Call Node ℝ (SAtom ℝ))} {st st' : Host τ}
    (h : Runs (run G other) st cs st') (hf : Flow (table G) pl nf cs) : Sounds G nf st.inp st.out st'.out cs := by
  refine ⟨?_, ?_, ?_, ?_, runs_silent h, fun ch f hk => runs_keep hk h hf.frames⟩
  · intro c hc hn
    have hr := rows_amp _ hn
    have hi : c.inputs.length = 3 := by rw [hf.nInputs c hc]; show (row c.node.kind).params.length = 3; rw [hr]; rfl
    have ha : c.atoms.length = 1 := by rw [hf.nAtoms c hc]; show (row c.node.kind).atoms.length = 1; rw [hr]; rfl
    have ho : c.outputs.length = 1 := by rw [hf.nOutputs c hc]; show (row c.node.kind).outs.length = 1; rw [hr]; rfl
    obtain ⟨x, g, a, hi⟩ := len3 hi
    obtain ⟨s, ha⟩ := len1 ha
    obtain ⟨st1, -, h1⟩ := runs_mem h hc
    rw [run_amp hn, ← outs_len h hc, ho] at h1
    refine ⟨x, g, a, s, _, hi, ha, h1, ?_⟩
    intro f hlt
    have hlt : f < c.nframes := by rw [hf.frames c hc]; exact hlt
    simp only [amp, if_true, setAt, ha, inAt, hi, List.getD_cons_zero, List.getD_cons_succ, gain_eq]
    split <;> simp only [wr, if_pos hlt, Curve.denorm]
  · intro c hc hn
    have hr := rows_mix3 _ hn
    have hi : c.inputs.length = 7 := by rw [hf.nInputs c hc]; show (row c.node.kind).params.length = 7; rw [hr]; rfl
    have ho : c.outputs.length = 1 := by rw [hf.nOutputs c hc]; show (row c.node.kind).outs.length = 1; rw [hr]; rfl
    obtain ⟨x1, x2, x3, v1, v2, v3, v, hi⟩ := len7 hi
    obtain ⟨st1, -, h1⟩ := runs_mem h hc
    rw [run_mix3 hn, ← outs_len h hc, ho] at h1
    refine ⟨x1, x2, x3, v1, v2, v3, v, _, hi, h1, ?_⟩
    intro f hlt
    have hlt : f < c.nframes := by rw [hf.frames c hc]; exact hlt
    simp only [mix3, if_true, inAt, hi, List.getD_cons_zero, List.getD_cons_succ, volume_eq, wr, if_pos hlt]
  · intro c hc hn
    have hr := rows_inp _ hn
    have hi : c.inputs.length = 1 := by rw [hf.nInputs c hc]; show (row c.node.kind).params.length = 1; rw [hr]; rfl
    have ho : c.outputs.length = 2 := by rw [hf.nOutputs c hc]; show (row c.node.kind).outs.length = 2; rw [hr]; rfl
    obtain ⟨v, hi⟩ := len1 hi
    obtain ⟨st1, hst, h1⟩ := runs_mem h hc
    rw [run_inp hn, ← outs_len h hc, ho] at h1
    refine ⟨v, _, _, hi, h1, ?_⟩
    intro f hlt
    have hlt : f < c.nframes := by rw [hf.frames c hc]; exact hlt
    simp [inp, inAt, hi, volume_eq, wr, if_pos hlt, hst]
  · rintro pre c post rfl hn hlast
    have hc : c ∈ pre ++ c :: post := by simp
    have hr := rows_out _ hn
    have hi : c.inputs.length = 3 := by rw [hf.nInputs c hc]; show (row c.node.kind).params.length = 3; rw [hr]; rfl
    have ha : c.atoms.length = 1 := by rw [hf.nAtoms c hc]; show (row c.node.kind).atoms.length = 1; rw [hr]; rfl
    obtain ⟨x1, x2, v, hi⟩ := len3 hi
    obtain ⟨s, ha⟩ := len1 ha
    obtain ⟨st1, h1, h2⟩ := runs_append h
    have h3 := runs_silent h2.2 hlast
    rw [run_out hn] at h3
    refine ⟨x1, x2, v, s, hi, ha, ?_⟩
    intro f hlt
    have hlt : f < c.nframes := by rw [hf.frames c hc]; exact hlt
    rw [h3]
    simp only [out_eq, hlt, and_true, if_true, inAt, hi, setAt, ha, List.getD_cons_zero, List.getD_cons_succ]
    refine ⟨trivial, ?_⟩
    rw [if_neg (by decide)]

end HexoDSP.IoProps
