import Verif.Model.Reset
/-!
# What the nodes need from the parts they are made of

The parts come from the crate `synfx_dsp`. A node can only forget if its parts do; these are the requirements, part by part.
-/

namespace HexoDSP.Reset

/-- The delay line and the clock of the delay: feeding it does not change the sample rate the line knows; a reset clock is a new one. -/
structure DelayParts {B C : Type} (E : Delay.Ext B C) (knows : B → Option ℚ → Prop) : Prop where
  line : Renews E.newBuf E.rateBuf E.resetBuf knows
  feed : ∀ b o x, knows b o → knows (E.feed b x) o
  clock : ∀ c, E.resetClock c = E.newClock

/-- The oscillator goes back to the phase it was made with; playing does not change that phase. -/
structure BlepParts {S : Type} (E : Osc.Blep S) (made : S → ℚ → Prop) : Prop where
  new : ∀ ph, made (E.new ph) ph
  reset : ∀ s ph, made s ph → E.reset s = E.new ph
  sin : ∀ s ph a b, made s ph → made (E.sin s a b).1 ph
  tri : ∀ s ph a b, made s ph → made (E.tri s a b).1 ph
  saw : ∀ s ph a b, made s ph → made (E.saw s a b).1 ph
  pulseNoDc : ∀ s ph a b c, made s ph → made (E.pulseNoDc s a b c).1 ph
  pulse : ∀ s ph a b c, made s ph → made (E.pulse s a b c).1 ph

/-- The same for the oscillator and the oversampling of the second oscillator. -/
structure VpsParts {S O : Type} (E : Osc.Vps S O) (made : S → ℚ → Prop) (knows : O → Option ℚ → Prop) : Prop where
  new : ∀ ph, made (E.new ph) ph
  reset : ∀ s ph, made s ph → E.reset s = E.new ph
  next : ∀ s ph a b c d, made s ph → made (E.next s a b c d).1 ph
  over : Renews E.overNew E.overRate E.overReset knows
  down : ∀ p o l, knows p o → knows (E.down p l).1 o

/-- Two LFOs that are alike as soon as frequency and shape are set. -/
def SameLfo {S T : Type} (E : Reverb.Lfo S T) (a b : S) : Prop := ∀ f v, E.set a f v = E.set b f v

/-- The LFO: a reset one is, as soon as frequency and shape are set, like a new one that knows the same sample rate. -/
structure LfoParts {S T : Type} (E : Reverb.Lfo S T) (knows : S → Option ℚ → Prop) : Prop where
  new : knows E.new none
  rate : ∀ s o r, knows s o → knows (E.rate s r) (some r)
  set : ∀ s o f v, knows s o → knows (E.set s f v) o
  next : ∀ s o, knows s o → knows (E.next s).1 o
  reset : ∀ s o, knows s o → knows (E.reset s) o
  renew : ∀ s o, knows s o → SameLfo E (E.reset s) (match o with
    | none => E.new
    | some r => E.rate E.new r)
  resets : ∀ a b, SameLfo E a b → SameLfo E (E.reset a) (E.reset b)
  rates : ∀ a b r, SameLfo E a b → SameLfo E (E.rate a r) (E.rate b r)
  trig : ∀ t, E.trigReset t = E.trigNew

/-- The parts of the bowed string: reset delay lines and body filters are new ones; the string filter keeps its two numbers. -/
structure StringParts {D P B : Type} (E : BowStri.Ext D P B) (is : P → ℚ → ℚ → Prop) : Prop where
  delay : ∀ d, E.delayReset d = E.delay
  body : ∀ b, E.bodyReset b = E.body
  pole : ∀ p g, is (E.pole p g) p g
  next : ∀ f p g x, is f p g → is (E.poleNext f x).1 p g
  reset : ∀ f p g, is f p g → E.poleReset f = E.pole p g

/-- The quantizer finds the same pitch for the same signal once the same keys are set, whatever it did before; the generator of the change trigger is made new by a
reset. -/
structure QuantParts {K Q C : Type} (E : Quant.Ext K Q C) (keys : Q → K → Prop) (knows : C → Option ℚ → Prop) : Prop where
  set : ∀ q k, keys (E.setKeys q k) k
  keep : ∀ q k x, keys q k → keys (E.toPitch q x).1 k
  same : ∀ q q' k x, keys q k → keys q' k → (E.toPitch q x).2 = (E.toPitch q' x).2
  change : Renews E.change E.changeRate E.changeReset knows
  next : ∀ c o x, knows c o → knows (E.changeNext c x).1 o

end HexoDSP.Reset
