import Verif.Spec.ExtParam
/-! The nodes ExtA to ExtF. -/

namespace HexoDSP.ExtParamProps
open HexoDSP.ExtParam ExtParamSpec

variable {S : Type}

theorem loop_follow (L : Slew S) (s : Fin 6) (h : Host) (i : Fin 3) (fs : List Frame) (rest : List (ℚ × Frame)) : ∀ n : Node S,
    follow L i (n.slew i) (fs.map (fun f => (h.get s i, f)) ++ rest) =
      (loop L (h.get s) n fs).2.map (fun o => o i) ++ follow L i ((loop L (h.get s) n fs).1.slew i) rest := by
  induction fs with
  | nil => intro n; rfl
  | cons f fs ih =>
    intro n
    simp only [List.map_cons, List.cons_append, follow, loop, List.map_cons]
    have := ih (tick L (h.get s) n f).1
    simp only [tick] at this ⊢
    rw [this]

theorem run_follow (L : Slew S) (s : Fin 6) (i : Fin 3) (es : List Ev) : ∀ n : Node S, Hosted es →
    (run L s n es).map (fun o => o i) = follow L i (n.slew i) (heard s i es) := by
  induction es with
  | nil => intro n _; rfl
  | cons e es ih =>
    intro n hh
    have hh' : Hosted es := fun h old fs hx => hh h old fs (by simp [hx])
    cases e with
    | reset => exact ih n hh'
    | rate r => exact ih n hh'
    | block host old fs =>
      cases host with
      | none => exact absurd (hh none old fs (by simp)) (by simp)
      | some h =>
        simp only [run, heard, Node.process, List.map_append]
        rw [ih _ hh', loop_follow]

/-- **C101** With a host, each output of an Ext node plays its own parameter of its own set, followed by its own slew limiter in the time asked for in each
frame, times its own attenuverter, in every history. (The English property also speaks of blocks without a host, of resets and of sample rates; see
`stale_without_host`, `reset_ignored` and `rate_ignored`.) -/
theorem follows_the_host_partial (L : Slew S) (s : Fin 6) (i : Fin 3) (es : List Ev) (hh : Hosted es) :
    (run L s (Node.new L) es).map (fun o => o i) = follow L i L.new (heard s i es) := run_follow L s i es _ hh

/-- **C101** (sets) A set the host does not answer plays like set A. -/
theorem missing_set_is_A (L : Slew S) (s : Fin 6) (es : List Ev)
    (hs : ∀ h old fs, Ev.block (some h) old fs ∈ es → ∀ i, h.get s i = h.a i) (n : Node S) : run L s n es = run L 0 n es := by
  induction es generalizing n with
  | nil => rfl
  | cons e es ih =>
    have hs' : ∀ h old fs, Ev.block (some h) old fs ∈ es → ∀ i, h.get s i = h.a i := fun h old fs hx => hs h old fs (by simp [hx])
    cases e with
    | reset => exact ih hs' _
    | rate r => exact ih hs' _
    | block host old fs =>
      cases host with
      | none => simp only [run, Node.process]; rw [ih hs']
      | some h =>
        have e1 : h.get s = h.get 0 := by
          funext i
          rw [hs h old fs (by simp) i]
          rfl
        simp only [run, Node.process, e1]
        rw [ih hs']

/-- The host answers a set with the parameters of set A if it leaves the set out. -/
theorem get_missing (h : Host) (s : Fin 6) (i : Fin 3) (hm : ∀ k : Fin 5, s.val = k.val + 1 → h.rest k i = none) : h.get s i = h.a i := by
  unfold Host.get
  split
  · rfl
  · rename_i hs
    rw [hm ⟨s.val - 1, by omega⟩ (by simp only; omega)]
    rfl

/-! ### What is false -/

/-- A limiter that moves one step in each frame, whatever the time. -/
def exL : Slew Int := ⟨0, fun x t _ => let y := if (x : ℚ) < t then x + 1 else if t < x then x - 1 else x; (y, y)⟩

def exHost : Host := ⟨fun i => i.val + 1, fun s i => if s = 0 then some (10 * (i.val + 1)) else none⟩

def exFs : List Frame := [⟨5, fun _ => 1⟩, ⟨5, fun _ => 1/2⟩]

/-- **C101** The English property is false without a host: the outputs are not silent, they keep whatever was in the buffers. -/
theorem stale_without_host (L : Slew S) (s : Fin 6) (old : List (Fin 3 → ℚ)) (fs : List Frame) :
    run L s (Node.new L) [.block none old fs] = old := by
  simp [run, Node.process]

/-- **C101** A reset is ignored: what is played after it goes on where it was. -/
theorem reset_ignored (L : Slew S) (s : Fin 6) (n : Node S) (before es : List Ev) :
    run L s n (before ++ .reset :: es) = run L s n (before ++ es) := by
  induction before generalizing n with
  | nil => rfl
  | cons e before ih => cases e <;> simp only [List.cons_append, run, ih]

/-- **C101** The sample rate is ignored: the slew time is counted in frames of whatever rate the limiters started with. -/
theorem rate_ignored (L : Slew S) (s : Fin 6) (n : Node S) (before es : List Ev) (r : ℚ) :
    run L s n (before ++ .rate r :: es) = run L s n (before ++ es) := by
  induction before generalizing n with
  | nil => rfl
  | cons e before ih => cases e <;> simp only [List.cons_append, run, ih]

/-- **C101** (reset) So a reset node does not play what a new one plays. -/
theorem reset_false : ¬ ∀ (L : Slew Int) (before es : List Ev) , Hosted before → Hosted es →
    (run L 0 (Node.new L) (before ++ .reset :: es)).drop (run L 0 (Node.new L) before).length = run L 0 (Node.new L) es := by
  intro h
  have hB : Hosted [.block (some exHost) [] exFs] := by
    intro h' old fs hx
    have hx' := List.mem_singleton.1 hx
    cases hx'; rfl
  have := congrArg (fun l => l.map (fun o => o (1 : Fin 3))) (h exL [.block (some exHost) [] exFs] [.block (some exHost) [] exFs] hB hB)
  revert this
  decide +kernel

/-! ### The hypotheses are met -/

example : Hosted [.block (some exHost) [] exFs, .reset, .block (some exHost) [] exFs] := by
  intro h old fs hx
  simp only [List.mem_cons, Ev.block.injEq, reduceCtorEq, List.not_mem_nil, or_false, false_or] at hx
  rcases hx with ⟨rfl, _⟩ | ⟨rfl, _⟩ <;> rfl

/-- ExtA plays 1, 2, 3; ExtB plays the 10, 20, 30 its host answers; ExtC plays like ExtA. -/
example : (run exL 0 (Node.new exL) [.block (some exHost) [] exFs]).map (fun o => [o 0, o 1, o 2]) = [[1, 1, 1], [1/2, 1, 1]] ∧
    (run exL 2 (Node.new exL) [.block (some exHost) [] exFs]).map (fun o => [o 0, o 1, o 2]) = [[1, 1, 1], [1/2, 1, 1]] ∧
    exHost.get 1 2 = 30 ∧ exHost.get 2 2 = 3 := by decide +kernel

end HexoDSP.ExtParamProps
