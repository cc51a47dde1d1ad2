import Verif.Credentials
/-
C49: combining credentials; C54: what a request carries.
-/
namespace QtPb.Cred

/-- In either order, `|` gives credentials whose channel map is the one given and whose call map is, at every
request, what the call functor returns then. -/
theorem C49_either_order (f : Nat → Map) (m : Map) :
    ∃ c, combine (.call f) (.channel m) = some c ∧ combine (.channel m) (.call f) = some c ∧
      c.channelCredentials = m ∧ ∀ n, (Nat.repeat (fun c : Credentials => c.callCredentials.2) n c).callCredentials.1 = f n ∧
        (Nat.repeat (fun c : Credentials => c.callCredentials.2) n c).channelCredentials = m := by
  refine ⟨⟨f, 0, m⟩, rfl, rfl, rfl, fun n => ?_⟩
  have h : Nat.repeat (fun c : Credentials => c.callCredentials.2) n ⟨f, 0, m⟩ = ⟨f, n, m⟩ := by
    induction n with
    | zero => rfl
    | succ n ih => simp only [Nat.repeat, ih]; rfl
  rw [h]
  exact ⟨rfl, rfl⟩

/-- `a | b` compiles only for one call and one channel credential, in some order. An object that is both is
combined by its role that is missing in the other; two such objects are ambiguous. -/
theorem C49_compiles_iff (a b : Operand) :
    (combine a b).isSome ↔
      (a.asCall.isSome ∧ b.asChannel.isSome ∧ ¬ (a.asChannel.isSome ∧ b.asCall.isSome)) ∨
      (a.asChannel.isSome ∧ b.asCall.isSome ∧ ¬ (a.asCall.isSome ∧ b.asChannel.isSome)) := by
  cases a <;> cases b <;> simp [combine, orCallChannel, orChannelCall, Operand.asCall, Operand.asChannel]

/-- Swapping the operands never changes the result. -/
theorem C49_commutes (a b : Operand) : combine a b = combine b a := by
  cases a <;> cases b <;> rfl

/-- An https channel without an SSL configuration is refused; with one it is used. -/
theorem C49_https (c : Credentials) :
    newChannel "https" c = .throw .invalidArgument ↔ ∀ v, (sslConfigCredential, v) ∉ c.channelCredentials := by
  unfold newChannel
  rw [if_pos rfl]
  have key : find c.channelCredentials sslConfigCredential = none ↔ ∀ v, (sslConfigCredential, v) ∉ c.channelCredentials := by
    simp only [find, Option.map_eq_none_iff, List.find?_eq_none, decide_eq_true_eq]
    constructor
    · intro h v hv; exact h _ hv rfl
    · rintro h ⟨k, v⟩ hv rfl; exact h v hv
  rw [← key]
  split
  · rename_i h; simp [h]
  · rename_i h; simp [h]
  · rename_i h; simp [h]

theorem C49_ssl (config : Nat) (f : Nat → Map) :
    ∃ c, combine (sslCredentials config) (.call f) = some c ∧ newChannel "https" c = .ok ("https", some config) := by
  refine ⟨_, rfl, ?_⟩
  simp [newChannel, Credentials.channelCredentials, find]

/-- Every other scheme is accepted whatever the credentials are, without a TLS configuration; a URL without a scheme is one of `http`. -/
theorem C49_plain (scheme : String) (c : Credentials) (h : scheme ≠ "https") :
    newChannel scheme c = .ok (if scheme = "" then "http" else scheme, none) := by
  unfold newChannel
  rw [if_neg h]
  split <;> rfl

example : newChannel "" ⟨fun _ => [], 0, []⟩ = .ok ("http", none) := rfl

/-- An object that is both is used for what the other operand does not give: its call credentials beside channel credentials,
its channel credentials beside call credentials; with another such object the expression does not compile. -/
theorem C49_both (f g : Nat → Map) (m m' : Map) :
    (∃ c, combine (.both f m) (.channel m') = some c ∧ c.channelCredentials = m' ∧ ∀ n, c.call n = f n) ∧
    (∃ c, combine (.both f m) (.call g) = some c ∧ c.channelCredentials = m ∧ ∀ n, c.call n = g n) ∧
    combine (.both f m) (.both g m') = none ∧ combine (.both f m) .other = none :=
  ⟨⟨_, rfl, rfl, fun _ => rfl⟩, ⟨_, rfl, rfl, fun _ => rfl⟩, rfl, rfl⟩

/-- Two call credentials, or two channel credentials, cannot be combined. -/
theorem C49_same_kind (f g : Nat → Map) (m m' : Map) :
    combine (.call f) (.call g) = none ∧ combine (.channel m) (.channel m') = none := ⟨rfl, rfl⟩

/-! ### C54 -/

/-- The same letter, upper and lower case not distinguished: equal, or a letter from A (65) to Z (90) and the one 32 further. -/
def Spec.SameLetter (a b : UInt8) : Prop :=
  a = b ∨ (65 ≤ a.toNat ∧ a.toNat ≤ 90 ∧ b.toNat = a.toNat + 32) ∨ (65 ≤ b.toNat ∧ b.toNat ≤ 90 ∧ a.toNat = b.toNat + 32)

/-- The same name of a header. -/
inductive Spec.SameName : Bytes → Bytes → Prop
  | nil : SameName [] []
  | cons {a b : UInt8} {x y : Bytes} : Spec.SameLetter a b → SameName x y → SameName (a :: x) (b :: y)

/-- Names of headers are compared without regard to upper and lower case. -/
theorem C54_names (x y : Bytes) : lower x = lower y ↔ Spec.SameName x y := by
  have key : ∀ a b : UInt8, (if 65 ≤ a.toNat ∧ a.toNat ≤ 90 then a + 32 else a) = (if 65 ≤ b.toNat ∧ b.toNat ≤ 90 then b + 32 else b) ↔
      Spec.SameLetter a b := by
    intro a b
    have h32 : ∀ c : UInt8, c.toNat ≤ 90 → (c + 32).toNat = c.toNat + 32 := fun c hc => by
      rw [UInt8.toNat_add]; show (c.toNat + 32) % 256 = _; omega
    unfold Spec.SameLetter
    simp only [← UInt8.toNat_inj]
    split <;> split
    · rename_i h1 h2; rw [h32 a h1.2, h32 b h2.2]; omega
    · rename_i h1 h2; rw [h32 a h1.2]; omega
    · rename_i h1 h2; rw [h32 b h2.2]; omega
    · omega
  induction x generalizing y with
  | nil =>
    cases y with
    | nil => exact ⟨fun _ => .nil, fun _ => rfl⟩
    | cons b y => exact ⟨fun h => by simp [lower] at h, fun h => by cases h⟩
  | cons a x ih =>
    cases y with
    | nil => exact ⟨fun h => by simp [lower] at h, fun h => by cases h⟩
    | cons b y =>
      have ih := ih y
      simp only [lower, List.map_cons, List.cons.injEq] at ih ⊢
      exact ⟨fun h => .cons ((key a b).1 h.1) (ih.1 h.2), fun h => by cases h with | cons h1 h2 => exact ⟨(key a b).2 h1, ih.2 h2⟩⟩

/-- `TE` and `te` are one name, `te` and `t-` are not. -/
example : Spec.SameName (ascii "TE") (ascii "te") ∧ ¬ Spec.SameName (ascii "te") (ascii "t-") := by
  rw [← C54_names, ← C54_names]; decide +kernel


theorem header_set (hs : List (Bytes × Bytes)) (name : Bytes) (v : Option Bytes) (n : Bytes) :
    header (setRawHeader hs name v) n = if lower n = lower name then v else header hs n := by
  have hf : ∀ l : List (Bytes × Bytes), lower n ≠ lower name →
      (l.filter (fun h => lower h.1 ≠ lower name)).find? (fun h => lower h.1 = lower n) = l.find? (fun h => lower h.1 = lower n) := by
    intro l hne
    induction l with
    | nil => rfl
    | cons x l ih =>
      by_cases hx : lower x.1 = lower name
      · have : ¬ lower x.1 = lower n := fun h => hne (h.symm.trans hx)
        simp [hx, Ne.symm hne]
        simpa using ih
      · by_cases hn : lower x.1 = lower n
        · simp [hn, hne]
        · simp only [List.filter_cons, hx, List.find?_cons, hn, ne_eq, not_false_eq_true, decide_true, if_true, decide_false]
          simpa using ih
  have hg : ∀ l : List (Bytes × Bytes), lower n = lower name →
      (l.filter (fun h => lower h.1 ≠ lower name)).find? (fun h => lower h.1 = lower n) = none := by
    intro l he
    rw [List.find?_eq_none]
    intro x hx
    have := (List.mem_filter.mp hx).2
    simp only [ne_eq, decide_eq_true_eq] at this ⊢
    rw [he]; simpa using this
  by_cases he : lower n = lower name
  · rw [if_pos he]
    cases v with
    | none => simp only [setRawHeader, header]; rw [hg _ he]; rfl
    | some v =>
      simp only [setRawHeader, header, List.find?_append]
      rw [hg _ he]
      simp [he]
  · rw [if_neg he]
    cases v with
    | none => simp only [setRawHeader, header]; rw [hf _ he]
    | some v =>
      simp only [setRawHeader, header, List.find?_append]
      rw [hf _ he]
      simp [Ne.symm he]

theorem header_fold (m : Map) (hs : List (Bytes × Bytes)) (n : Bytes)
    (hd : m.Pairwise (fun a b => lower a.1 ≠ lower b.1)) :
    header (m.foldl (fun h e => setRawHeader h e.1 e.2.toUtf8) hs) n =
      match m.find? (fun e => lower e.1 = lower n) with
      | some e => e.2.toUtf8
      | none => header hs n := by
  induction m generalizing hs with
  | nil => rfl
  | cons x m ih =>
    rw [List.pairwise_cons] at hd
    simp only [List.foldl_cons]
    rw [ih _ hd.2]
    by_cases hx : lower x.1 = lower n
    · have : m.find? (fun e => lower e.1 = lower n) = none := by
        rw [List.find?_eq_none]
        intro e he
        simp only [decide_eq_true_eq]
        intro hn
        exact hd.1 e he (hx.trans hn.symm)
      rw [this]
      simp [hx, header_set]
    · simp only [List.find?_cons, hx, decide_false]
      cases m.find? (fun e => decide (lower e.1 = lower n)) with
      | some e => rfl
      | none => simp only [header_set]; rw [if_neg (fun h => hx h.symm)]

/-- The four headers every request has. -/
def Spec.protocol : List (Bytes × Bytes) :=
  [(ascii "content-type", ascii "application/grpc"), (ascii "grpc-accept-encoding", ascii "identity,deflate,gzip"),
   (ascii "accept-encoding", ascii "identity,gzip"), (ascii "te", ascii "trailers")]

/-- Spelled out, for a name written in lower case: a credential of that name, otherwise the header of the protocol,
otherwise nothing. -/
def Spec.expected (m : Map) (n : Bytes) : Option Bytes :=
  match m.find? (fun e => lower e.1 = n) with
  | some e => e.2.toUtf8
  | none => (Spec.protocol.find? (·.1 = n)).map (·.2)

theorem fixed_eq (n : Bytes) (hn : lower n = n) : header fixedHeaders n = (Spec.protocol.find? (·.1 = n)).map (·.2) := by
  have : fixedHeaders = [(ascii "Content-Type", ascii "application/grpc"), (ascii "grpc-accept-encoding", ascii "identity,deflate,gzip"),
      (ascii "accept-encoding", ascii "identity,gzip"), (ascii "te", ascii "trailers")] := by decide +kernel
  rw [this]
  have h1 : lower (ascii "Content-Type") = ascii "content-type" := by decide +kernel
  have h2 : lower (ascii "grpc-accept-encoding") = ascii "grpc-accept-encoding" := by decide +kernel
  have h3 : lower (ascii "accept-encoding") = ascii "accept-encoding" := by decide +kernel
  have h4 : lower (ascii "te") = ascii "te" := by decide +kernel
  simp only [header, hn, List.find?_cons, h1, h2, h3, h4, Spec.protocol, List.find?_nil]
  cases decide (ascii "content-type" = n) <;> cases decide (ascii "grpc-accept-encoding" = n) <;>
    cases decide (ascii "accept-encoding" = n) <;> cases decide (ascii "te" = n) <;> rfl

/-- The `k`-th request of a channel carries exactly: the credentials that the call functor returns for that
request, and the protocol's headers where no credential has that name. `hd`: no two credentials have the same
name, upper and lower case not distinguished. -/
theorem C54_headers (f : Nat → Map) (m : Map) (n k : Nat) (hk : k < n) {c : Credentials}
    (hc : combine (.call f) (.channel m) = some c) (hd : (f k).Pairwise (fun a b => lower a.1 ≠ lower b.1)) :
    ∃ h, (posts c n)[k]? = some h ∧ ∀ name, lower name = name → header h name = Spec.expected (f k) name := by
  have hall : ∀ n j k, k < n → (posts ⟨f, j, m⟩ n)[k]? =
      some ((f (j + k)).foldl (fun h e => setRawHeader h e.1 e.2.toUtf8) fixedHeaders) := by
    intro n
    induction n with
    | zero => intro j k hk; omega
    | succ n ih =>
      intro j k hk
      cases k with
      | zero => rfl
      | succ k =>
        have := ih (j + 1) k (by omega)
        rw [show j + (k + 1) = j + 1 + k by omega]
        exact this
  have hc' : c = ⟨f, 0, m⟩ := by
    have : combine (.call f) (.channel m) = some ⟨f, 0, m⟩ := rfl
    rw [this] at hc; exact (Option.some.inj hc).symm
  subst hc'
  refine ⟨_, hall n 0 k hk, ?_⟩
  intro name hn
  rw [Nat.zero_add, header_fold _ _ _ hd]
  unfold Spec.expected
  rw [hn]
  cases (f k).find? (fun e => decide (lower e.1 = name)) with
  | some e => rfl
  | none => exact fixed_eq name hn

/-- User and password are sent with every call. -/
theorem C54_user_password (user password : Bytes) {c : Credentials} {k : Nat}
    (hc : combine (userPassword (ascii "user-name") (ascii "user-password") (some user) (some password)) insecureChannel = some c) :
    ∃ h, (posts c (k + 1))[k]? = some h ∧ header h (ascii "user-name") = some user ∧
      header h (ascii "user-password") = some password := by
  have l1 : lower (ascii "user-name") = ascii "user-name" := by decide +kernel
  have l2 : lower (ascii "user-password") = ascii "user-password" := by decide +kernel
  have ne : ascii "user-name" ≠ ascii "user-password" := by decide +kernel
  obtain ⟨h, h1, h2⟩ := C54_headers (fun _ => [(ascii "user-name", .text (some user)), (ascii "user-password", .text (some password))])
    [] (k + 1) k (by omega) hc (by simp [l1, l2, ne])
  refine ⟨h, h1, ?_, ?_⟩
  · rw [h2 _ l1]; simp [Spec.expected, l1, Value.toUtf8]
  · rw [h2 _ l2]; simp [Spec.expected, l1, l2, ne, Value.toUtf8]

/-- A null password is not sent as an empty header: the header is missing. -/
theorem C54_null_password :
    ∀ c, combine (userPassword (ascii "user-name") (ascii "user-password") (some [97]) none) insecureChannel = some c →
      header (post c).1 (ascii "user-password") = none := by
  intro c hc
  have hc' : c = ⟨fun _ => [(ascii "user-name", .text (some [97])), (ascii "user-password", .text none)], 0, []⟩ :=
    (Option.some.inj hc).symm
  subst hc'
  have : ∀ f m, header (post ⟨f, 0, m⟩).1 (ascii "user-password") =
      header ((f 0).foldl (fun h e => setRawHeader h e.1 e.2.toUtf8) fixedHeaders) (ascii "user-password") := fun _ _ => rfl
  rw [this]
  decide +kernel

/-- A credential may replace a header of the protocol. -/
example : Spec.expected [(ascii "TE", .text (some [1]))] (ascii "te") = some [1] := by decide +kernel
example : Spec.expected [(ascii "token", .text (some [1]))] (ascii "te") = some (ascii "trailers") := by decide +kernel
/-- Names that differ in case only: which one is sent depends on the order of the hash. -/
theorem C54_order_violated :
    header ([(ascii "A", Value.text (some [1])), (ascii "a", .text (some [2]))].foldl (fun h e => setRawHeader h e.1 e.2.toUtf8) fixedHeaders) (ascii "a") ≠
    header ([(ascii "a", Value.text (some [2])), (ascii "A", .text (some [1]))].foldl (fun h e => setRawHeader h e.1 e.2.toUtf8) fixedHeaders) (ascii "a") := by
  decide +kernel

end QtPb.Cred
