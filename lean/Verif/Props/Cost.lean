import Verif.Lemmas.Leftover
import Verif.Props.Conform

/-! C177: how long an upload is. -/

namespace HttpIo
open Spec

/-- A number is at least as large as it has digits, unless it is zero. -/
theorem hexDigits_le (n : Nat) (h : 0 < n) : hexDigits n ≤ n := by
  induction n using Nat.strongRecOn with
  | ind n ih =>
    unfold hexDigits
    split
    · exact h
    · have := ih (n / 16) (by omega) (by omega)
      omega

/-- A number below a power of sixteen has no more digits than that. -/
theorem hexDigits_below (k n : Nat) (h : n < 16 ^ (k + 1)) : hexDigits n ≤ k + 1 := by
  induction k generalizing n with
  | zero =>
    unfold hexDigits
    rw [if_pos (by simpa using h)]
    omega
  | succ k ih =>
    unfold hexDigits
    split
    · omega
    · have : n / 16 < 16 ^ (k + 1) := by
        rw [Nat.div_lt_iff_lt_mul (by omega), ← Nat.pow_succ]; exact h
      have := ih _ this
      omega

theorem sum_le_of (l : List Bytes) (f : Bytes → Nat) (k : Nat) (h : ∀ b ∈ l, f b ≤ k * b.length) :
    (l.map f).sum ≤ k * l.flatten.length := by
  induction l with
  | nil => simp
  | cons b l ih =>
    have h1 := h b List.mem_cons_self
    have h2 := ih fun x hx => h x (List.mem_cons_of_mem _ hx)
    simp only [List.map_cons, List.sum_cons, List.flatten_cons, List.length_append, Nat.mul_add]
    omega

theorem flatten_filter (l : List Bytes) : (l.filter (· ≠ [])).flatten = l.flatten := by
  induction l with
  | nil => rfl
  | cons b l ih =>
    by_cases h0 : b = []
    · subst h0; simpa using ih
    · simp only [ne_eq, h0, not_false_eq_true, decide_true, List.filter_cons_of_pos, List.flatten_cons]
      rw [← ih]

theorem uploadSize_le (bufs : List Bytes) : uploadSize bufs ≤ 6 * bufs.flatten.length + 5 := by
  have := sum_le_of (bufs.filter (· ≠ [])) (fun buf => hexDigits buf.length + 2 + buf.length + 2) 6 (by
    intro b hb
    have hb : b ≠ [] := by simpa using (List.mem_filter.1 hb).2
    have h0 : 0 < b.length := List.length_pos_iff.2 hb
    have := hexDigits_le _ h0
    omega)
  rw [flatten_filter] at this
  exact Nat.add_le_add_right this 5

theorem uploadSize_large (bufs : List Bytes) (m : Nat) (hm : 0 < m)
    (hw : ∀ buf ∈ bufs, buf ≠ [] → m ≤ buf.length ∧ buf.length < 2 ^ 64) :
    uploadSize bufs ≤ bufs.flatten.length + 20 * (bufs.flatten.length / m) + 5 := by
  have key : ∀ l : List Bytes, (∀ b ∈ l, m ≤ b.length ∧ b.length < 2 ^ 64) →
      (l.map fun buf => hexDigits buf.length + 2 + buf.length + 2).sum ≤ l.flatten.length + 20 * l.length ∧
        m * l.length ≤ l.flatten.length := by
    intro l hl
    induction l with
    | nil => simp
    | cons b l ih =>
      obtain ⟨i1, i2⟩ := ih fun x hx => hl x (List.mem_cons_of_mem _ hx)
      obtain ⟨b1, b2⟩ := hl b List.mem_cons_self
      have := hexDigits_below 15 b.length (by simpa using b2)
      simp only [List.map_cons, List.sum_cons, List.flatten_cons, List.length_append, List.length_cons, Nat.mul_add]
      omega
  obtain ⟨k1, k2⟩ := key (bufs.filter (· ≠ [])) (by
    intro b hb
    obtain ⟨b1, b2⟩ := List.mem_filter.1 hb
    exact hw b b1 (by simpa using b2))
  rw [flatten_filter] at k1 k2
  have : (bufs.filter (· ≠ [])).length ≤ bufs.flatten.length / m := by
    rw [Nat.le_div_iff_mul_le hm, Nat.mul_comm]; exact k2
  exact Nat.add_le_add_right (Nat.le_trans k1 (Nat.add_le_add_left (Nat.mul_le_mul_left 20 this) _)) 5

section
variable {c : Cfg} {ρ σ : Type} [LawfulWriter σ]

/-- How many bytes a request takes: its head, and for the methods with a body for each write that is not empty its data, the
digits of its length in hexadecimal and four bytes; and five at the end. -/
theorem C177_size (r : HttpRequest c ρ) (s s' : σ) (hv : r.version = ⟨1, 1⟩) (o o' : OutgoingRequest c σ) (cs : List WCall)
    (h : r.serialize (BufWriter.new c s) = .ok o) (hp : perform o cs = (true, o')) (hc : o'.complete = .ok s') :
    (Carries r.method → (wire s').length = (sent s).length + (requestHead r.method r.uri r.headers.entries).length +
      uploadSize (written cs)) ∧
    (¬ Carries r.method → (wire s').length = (sent s).length + (requestHead r.method r.uri r.headers.entries).length) := by
  obtain ⟨e1, e2⟩ := C18_serialized r s hv o h
  constructor
  · intro hm
    obtain ⟨b, rfl⟩ := e2.2 hm
    rw [perform_withBody] at hp
    simp only [Prod.mk.injEq] at hp
    obtain ⟨q1, q2⟩ := hp
    rw [← q2] at hc
    obtain ⟨_, p, _, p2, p3⟩ := OutgoingBody.perform_sent (Prod.ext q1 rfl : perform b cs = (true, (perform b cs).2))
    obtain ⟨c1, c2⟩ := OutgoingBody.complete_ok hc
    rw [c2, c1, p2, p3 rfl, show sent b.socket = outgoingSent (.WithBody b) from rfl, e1, ← upload_length]
    simp only [List.length_append]
    omega
  · intro hm
    cases o with
    | WithBody b => exact absurd (e2.1 ⟨b, rfl⟩) hm
    | NoBody t =>
      have := sent_request (by
        intro buf hb
        have := (perform_noBody (c := c) t cs).2.1 (by rw [hp])
        rw [this] at hb; simp at hb) hp hc
      obtain ⟨m1, m2, _⟩ := this
      obtain ⟨q1, _⟩ := m2 t rfl
      rw [m1, q1, show sent t = outgoingSent (.NoBody (c := c) t) from rfl, e1, List.length_append]

/-- However a body is written, it takes no more than six times its bytes, and five. -/
theorem C177_bound (r : HttpRequest c ρ) (s s' : σ) (hv : r.version = ⟨1, 1⟩) (o o' : OutgoingRequest c σ) (cs : List WCall)
    (h : r.serialize (BufWriter.new c s) = .ok o) (hp : perform o cs = (true, o')) (hc : o'.complete = .ok s') :
    (wire s').length ≤ (sent s).length + (requestHead r.method r.uri r.headers.entries).length +
      6 * (written cs).flatten.length + 5 := by
  obtain ⟨h1, h2⟩ := C177_size r s s' hv o o' cs h hp hc
  by_cases hm : Carries r.method
  · rw [h1 hm]
    have := uploadSize_le (written cs)
    omega
  · rw [h2 hm]; omega

/-- If no write is shorter than `m` bytes (or longer than a `u64` says), what is sent beside head and body is no more than twenty
bytes for each `m` bytes, and five. -/
theorem C177_large (r : HttpRequest c ρ) (s s' : σ) (hv : r.version = ⟨1, 1⟩) (o o' : OutgoingRequest c σ) (cs : List WCall)
    (h : r.serialize (BufWriter.new c s) = .ok o) (hp : perform o cs = (true, o')) (hc : o'.complete = .ok s') (m : Nat) (hm : 0 < m)
    (hw : ∀ buf ∈ written cs, buf ≠ [] → m ≤ buf.length ∧ buf.length < 2 ^ 64) :
    (wire s').length ≤ (sent s).length + (requestHead r.method r.uri r.headers.entries).length +
      (written cs).flatten.length + 20 * ((written cs).flatten.length / m) + 5 := by
  obtain ⟨h1, h2⟩ := C177_size r s s' hv o o' cs h hp hc
  by_cases hmm : Carries r.method
  · rw [h1 hmm]
    have := uploadSize_large (written cs) m hm hw
    omega
  · rw [h2 hmm]; omega

end

/-- A request, and what three writes of it come to: a body of four bytes takes 1 + 2 + 1 + 2, 1 + 2 + 3 + 2 and five bytes. -/
example (c : Cfg) : letI : CaseMap := asciiCase
    let r : HttpRequest c Wire := ⟨.Put, b!"/", ⟨1, 1⟩, ⟨[(b!"host", b!"h")]⟩, .ReadTilClose (Wire.mk [])⟩
    let cs : List WCall := [.write b!"a", .write [], .write b!"bcd"]
    uploadSize (written cs) = 19 ∧
    (match r.serialize (BufWriter.new c (Sink.mk [] 0 [])) with
    | .ok o => decide ((perform o cs).1 = true) && (match (perform o cs).2.complete with
      | .ok s' => decide ((wire s').length = (requestHead .Put b!"/" [(b!"host", b!"h")]).length + 19)
      | _ => false)
    | _ => false) = true := by
  rcases c with ⟨_ | _⟩ <;> decide +kernel

/-- The bound cannot be lowered: writes of one byte each take six bytes for one. -/
example (n : Nat) : uploadSize (List.replicate n b!"a") = 6 * (List.replicate n b!"a").flatten.length + 5 := by
  have h1 : (List.replicate n b!"a").flatten.length = n := by simp
  rw [h1]
  unfold uploadSize
  congr 1
  induction n with
  | zero => rfl
  | succ n ih =>
    rw [List.replicate_succ, List.filter_cons_of_pos (by decide), List.map_cons, List.sum_cons, ih (by simp)]
    have : hexDigits (b!"a").length + 2 + (b!"a").length + 2 = 6 := by decide +kernel
    omega

end HttpIo
