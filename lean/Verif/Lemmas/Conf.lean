import Verif.Lemmas.Frame
/- Configuration and clone mark. -/
namespace Pkstl
open Spec

/-- How a call changes configuration and clone mark. -/
theorem step_conf {env : Env} {st : Start} {s : Layer} (h : Wf env st s) (op : Op) :
    (s.cloned = true → (step env s op).1.cloned = true ∧ (step env s op).1.config = s.config) ∧
    ((∀ c, op ≠ .config c) → (step env s op).1.config = s.config) ∧
    (op ≠ .clone → (step env s op).1.cloned = s.cloned) := by
  have same : ∀ s' : Layer, s'.cloned = s.cloned → s'.config = s.config →
      (s.cloned = true → s'.cloned = true ∧ s'.config = s.config) ∧
      ((∀ c, op ≠ .config c) → s'.config = s.config) ∧ (op ≠ .clone → s'.cloned = s.cloned) :=
    fun s' h1 h2 => ⟨fun h => ⟨h1.trans h, h2⟩, fun _ => h2, fun _ => h1⟩
  cases op with
  | read b => exact same _ (readFrame env s b true).cloned (readFrame env s b true).config
  | takeAck =>
    show _ ∧ _
    simp only [step]
    rcases takeAck_cases env s with ⟨-, he⟩ | ⟨b, -, he⟩
    · rw [he]; exact same _ rfl rfl
    · rw [he]
      have := readFrame env { s with ackMsgRecvTooEarly := none } b true
      exact same _ this.cloned this.config
  | drain => exact same _ (drain_frame h).cloned (drain_frame h).config
  | connect pk d =>
    simp only [step]
    rcases createConnect_cases env s pk d with ⟨rem, hs, he⟩ | ⟨-, he⟩ <;> rw [he] <;> exact same _ rfl rfl
  | ack d =>
    simp only [step]
    rcases createAck_cases env s d with ⟨loc, hs, he⟩ | ⟨-, he⟩ <;> rw [he] <;> exact same _ rfl rfl
  | write d w =>
    simp only [step]
    rcases writeMessage_cases env s d w with ⟨-, he⟩ | ⟨_, _, -, he⟩ | ⟨-, -, he⟩ |
      ⟨hs, k, hk, ⟨w', e, -, he⟩ | ⟨w', -, ⟨n, hn, he⟩ | ⟨-, he⟩⟩⟩ <;> rw [he] <;> exact same _ rfl rfl
  | clone =>
    simp only [step]
    unfold Layer.tryClone
    split <;> simp
  | config c =>
    simp only [step]
    unfold Layer.changeConfig
    split
    · rename_i h; simp [h]
    · simp

end Pkstl
