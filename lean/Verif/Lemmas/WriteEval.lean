import Verif.Lemmas.Wf
import Verif.Lemmas.BufWriter
/- `write_message` on a writer without failures. -/
namespace Pkstl
open Spec

theorem writeMessage_good {env : Env} (law : env.cr.Lawful) {s : Layer} {k : SecretKey} (d : Bytes) {w : BufW}
    (hs : s.status = .success) (hk : s.secret = some k) (hw : w.sink.script = []) (hcap : 16 < w.cap)
    (hn : s.nextNonceSent + 1 < u64Size) :
    ∃ w', s.writeMessage env d w = ({ s with nextNonceSent := s.nextNonceSent + 1 }, w', .ok ()) ∧
      w'.stream = w.stream ++ aeadSeal env.cr k (userPlain env.cr s.nextNonceSent d) ∧
      w'.sink.script = [] ∧ w'.cap = w.cap := by
  obtain ⟨h1, h2⟩ := encrypt_good (env := env) k (userPlain env.cr s.nextNonceSent d) w hw
  rcases writeMessage_cases env s d w with ⟨h, -⟩ | ⟨_, _, h, -⟩ | ⟨-, h, -⟩ |
    ⟨-, k', hk', ⟨w', e, he, -⟩ | ⟨w', he, ⟨n, hn', hm⟩ | ⟨hn', -⟩⟩⟩
  · simp [hs] at h
  · simp [hs] at h
  · simp [hk] at h
  · rw [hk] at hk'
    simp only [Option.some.injEq] at hk'
    subst hk'
    rw [he] at h1
    simp at h1
  · rw [hk] at hk'
    simp only [Option.some.injEq] at hk'
    subst hk'
    rw [he] at h2
    rw [addU64_of_lt hn] at hn'
    simp only [Option.some.injEq] at hn'
    subst hn'
    obtain ⟨h3, h4⟩ := encrypt_ok law hcap he
    exact ⟨w', hm, h3, h2, h4⟩
  · rw [addU64_of_lt hn] at hn'
    simp at hn'

end Pkstl
