import Verif.Model.Debug
/- What the `Debug` text of a layer may depend on. -/
namespace Pkstl.Spec

/-- `ring` prints private keys through their public keys at most. -/
structure Discreet (cr : Crypto) (r : RingDebug) : Prop where
  privateKey : ∀ k k', cr.xPublic k = cr.xPublic k' → r.privateKey k = r.privateKey k'
  keyPair : ∀ s s', cr.edPublic s = cr.edPublic s' → r.keyPair s = r.keyPair s'

/-- The two layers differ at most in the private ephemeral key and in the signature seed, and the public keys of these are
the same. -/
structure SamePublic (cr : Crypto) (sl sl' : SecureLayer) : Prop where
  rest : { sl'.minimal with ephemeralKp := none } = { sl.minimal with ephemeralKp := none }
  keyPair : sl'.minimal.ephemeralKp.map (fun kp => (cr.xPublic kp.privkey, kp.pubkey)) =
    sl.minimal.ephemeralKp.map fun kp => (cr.xPublic kp.privkey, kp.pubkey)
  seed : sl'.sigSeed.map cr.edPublic = sl.sigSeed.map cr.edPublic

end Pkstl.Spec
