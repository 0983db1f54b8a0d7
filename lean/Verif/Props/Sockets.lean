import Verif.Sockets.Spec
set_option autoImplicit false
/-! C113, C114: the thread that receives datagrams. -/
namespace Verif.Sockets

theorem upd_self {α : Type} (m : Nat → Option α) (k : Nat) (v : Option α) : upd m k v k = v := by simp [upd]
theorem upd_ne {α : Type} (m : Nat → Option α) {k x : Nat} (v : Option α) (h : x ≠ k) : upd m k v x = m x := by simp [upd, h]

/-- The tables fit together. -/
structure Data (s : St) : Prop where
  len : s.next = s.sessions.length
  portHeap : ∀ p a, s.ports p = some a → ∃ l, s.heap a = some l ∧ l.port = p
  heapPort : ∀ a l, s.heap a = some l → s.ports l.port = some a
  heapSock : ∀ a l, s.heap a = some l → ∃ k, s.socks l.fd = some k ∧ k.sid = a ∧ k.port = l.port ∧ k.err = false
  sockHeap : ∀ fd k, s.socks fd = some k → ∃ l, s.heap k.sid = some l ∧ l.fd = fd
  heapSess : ∀ a l, s.heap a = some l → s.sessions[a]? = some ⟨l.port, l.maxSize, l.func⟩
  descHeap : ∀ fd a, s.descs fd = some a → ∃ l, s.heap a = some l ∧ l.fd = fd
  entDesc : ∀ e ∈ s.entries, s.descs e.fd ≠ none
  descEnt : ∀ fd a, s.descs fd = some a → ∃ e ∈ s.entries, e.fd = fd
  nodup : (s.entries.map Entry.fd).Nodup

/-- Every datagram that came was passed on, or waits. -/
structure Hist (s : St) : Prop where
  arr : ∀ x ∈ s.arrived, x.1 < s.next
  call : ∀ c ∈ s.calls, c.sid < s.next
  each : ∀ i se, s.sessions[i]? = some se → ∃ taken rest, arrivedAt s i = taken ++ rest ∧ callsOf s i = taken.filterMap (deliver se) ∧
    ∀ fd k, s.socks fd = some k → k.sid = i → k.queue = rest

/-- The entries say only what is so. -/
def Good (s : St) (es : List Entry) : Prop := ∀ e ∈ es, e.err = false ∧ (e.ready = true → ∃ k, s.socks e.fd = some k ∧ k.queue ≠ [])

/-- The state of the event thread. -/
def Scan (s : St) : Prop := match s.pc with
  | .control ctl n => Good s s.entries ∧ n = (if ctl then 1 else 0) + count s.entries ∧ (ctl = true → s.pipe ≠ [] ∨ s.writeOpen = false)
  | .scan todo n => todo <:+ s.entries ∧ Good s todo ∧ count todo ≤ n
  | _ => True

/-- All listeners but those on port `p` are registered with the event thread, those are not. -/
def AllBut (s : St) (p : Option Nat) : Prop := ∀ a l, s.heap a = some l → s.descs l.fd = if some l.port = p then none else some a

/-- The event thread is there. -/
def Live (s : St) : Prop := s.pc ≠ .off ∧ s.pc ≠ .gone

/-- The states of the whole. -/
inductive Phase (s : St) : Prop
  | off : s.started = false → s.pc = .off → s.caller = .idle → s.pipe = [] → s.sem = 0 → (∀ a, s.heap a = none) → s.entries = [] → Phase s
  | idle : s.started = true → s.joinable = true → s.writeOpen = true → s.readOpen = true → Live s → s.caller = .idle → s.pipe = [] → s.sem = 0 → AllBut s none → Phase s
  | opening (p : Nat) : s.started = true → s.joinable = true → s.writeOpen = true → s.readOpen = true → Live s → s.caller = .opening p → s.ports p ≠ none →
    (s.pipe = [.add p] ∧ s.sem = 0 ∧ AllBut s (some p) ∨ s.pipe = [] ∧ s.sem = 1 ∧ AllBut s none) → Phase s
  | closing (p : Nat) : s.started = true → s.joinable = true → s.writeOpen = true → s.readOpen = true → Live s → s.caller = .closing p → s.ports p ≠ none →
    (s.pipe = [.remove p] ∧ s.sem = 0 ∧ AllBut s none ∨ s.pipe = [] ∧ s.sem = 1 ∧ AllBut s (some p)) → Phase s
  | stopping : s.started = true → s.joinable = true → s.writeOpen = false → s.caller = .stopping → s.pipe = [] → s.sem = 0 →
    (Live s ∧ AllBut s none ∨ s.pc = .gone ∧ (∀ fd, s.descs fd = none) ∧ s.entries = []) → Phase s
  | stopped : s.started = true → s.joinable = false → s.writeOpen = false → s.pc = .gone → s.caller = .idle → s.pipe = [] → s.sem = 0 → (∀ a, s.heap a = none) → Phase s

/-- Everything. -/
structure Inv (s : St) : Prop where
  ok : s.crashed = false
  good : s.badClose = false
  data : Data s
  hist : Hist s
  scan : Scan s
  phase : Phase s

theorem inv_init : Inv {} := by
  refine ⟨rfl, rfl, ?_, ?_, trivial, .off rfl rfl rfl rfl rfl (fun _ => rfl) rfl⟩
  · refine ⟨rfl, ?_, ?_, ?_, ?_, ?_, ?_, ?_, ?_, List.nodup_nil⟩ <;> intros <;> contradiction
  · refine ⟨?_, ?_, ?_⟩ <;> intros <;> simp_all

theorem Data.fresh {s : St} (h : Data s) : s.heap s.next = none := by
  cases e : s.heap s.next with
  | none => rfl
  | some l =>
    have := h.heapSess _ _ e
    rw [h.len] at this
    simp at this

theorem Data.freeFd {s : St} (h : Data s) {fd : Nat} (hf : s.socks fd = none) : (∀ a l, s.heap a = some l → l.fd ≠ fd) ∧ s.descs fd = none := by
  have h1 : ∀ a l, s.heap a = some l → l.fd ≠ fd := by
    intro a l hl he
    obtain ⟨k, hk, -⟩ := h.heapSock a l hl
    rw [he, hf] at hk
    cases hk
  refine ⟨h1, ?_⟩
  cases e : s.descs fd with
  | none => rfl
  | some a =>
    obtain ⟨l, hl, he⟩ := h.descHeap fd a e
    exact absurd he (h1 a l hl)

/-- Two listeners have different descriptors and ports. -/
theorem Data.inj {s : St} (h : Data s) {a b : Nat} {l m : Listener} (ha : s.heap a = some l) (hb : s.heap b = some m) : (l.fd = m.fd → a = b) ∧ (l.port = m.port → a = b) := by
  refine ⟨fun e => ?_, fun e => ?_⟩
  · obtain ⟨k, hk, h1, -⟩ := h.heapSock a l ha
    obtain ⟨k', hk', h1', -⟩ := h.heapSock b m hb
    rw [e, hk'] at hk
    cases hk
    exact h1.symm.trans h1'
  · have h1 := h.heapPort a l ha
    have h2 := h.heapPort b m hb
    rw [e, h2] at h1
    exact (Option.some.inj h1).symm

/-- Opening: the new listener and its socket. -/
theorem data_open {s : St} (h : Data s) {port maxLen func fd : Nat} (hf : s.socks fd = none) (hp : s.ports port = none) (s' : St)
    (e1 : s'.socks = upd s.socks fd (some ⟨port, s.next, [], false⟩)) (e2 : s'.heap = upd s.heap s.next (some ⟨func, maxLen, fd, port, 0⟩))
    (e3 : s'.ports = upd s.ports port (some s.next)) (e4 : s'.next = s.next + 1) (e5 : s'.sessions = s.sessions ++ [⟨port, maxLen, func⟩])
    (e6 : s'.descs = s.descs) (e7 : s'.entries = s.entries) : Data s' := by
  obtain ⟨hfd, hdn⟩ := h.freeFd hf
  have hfresh := h.fresh
  refine ⟨?_, ?_, ?_, ?_, ?_, ?_, ?_, ?_, ?_, ?_⟩
  · rw [e4, e5, h.len]; simp
  · intro p a hpa
    rw [e3] at hpa
    rw [e2]
    by_cases hpp : p = port
    · subst hpp
      rw [upd_self] at hpa
      cases hpa
      exact ⟨_, upd_self _ _ _, rfl⟩
    · rw [upd_ne _ _ hpp] at hpa
      obtain ⟨l, hl, hlp⟩ := h.portHeap p a hpa
      have : a ≠ s.next := by rintro rfl; rw [hfresh] at hl; cases hl
      exact ⟨l, by rw [upd_ne _ _ this]; exact hl, hlp⟩
  · intro a l hl
    rw [e2] at hl
    rw [e3]
    by_cases ha : a = s.next
    · subst ha
      rw [upd_self] at hl
      cases hl
      exact upd_self _ _ _
    · rw [upd_ne _ _ ha] at hl
      have := h.heapPort a l hl
      have hne : l.port ≠ port := by intro e; rw [e, hp] at this; cases this
      rw [upd_ne _ _ hne]; exact this
  · intro a l hl
    rw [e2] at hl
    rw [e1]
    by_cases ha : a = s.next
    · subst ha
      rw [upd_self] at hl
      cases hl
      exact ⟨_, upd_self _ _ _, rfl, rfl, rfl⟩
    · rw [upd_ne _ _ ha] at hl
      obtain ⟨k, hk, hr⟩ := h.heapSock a l hl
      exact ⟨k, by rw [upd_ne _ _ (hfd a l hl)]; exact hk, hr⟩
  · intro fd' k hk
    rw [e1] at hk
    rw [e2]
    by_cases he : fd' = fd
    · subst he
      rw [upd_self] at hk
      cases hk
      exact ⟨_, upd_self _ _ _, rfl⟩
    · rw [upd_ne _ _ he] at hk
      obtain ⟨l, hl, hle⟩ := h.sockHeap fd' k hk
      have : k.sid ≠ s.next := by intro e; rw [e, hfresh] at hl; cases hl
      exact ⟨l, by rw [upd_ne _ _ this]; exact hl, hle⟩
  · intro a l hl
    rw [e2] at hl
    rw [e5]
    by_cases ha : a = s.next
    · subst ha
      rw [upd_self] at hl
      cases hl
      rw [h.len]; simp
    · rw [upd_ne _ _ ha] at hl
      have := h.heapSess a l hl
      rw [List.getElem?_append_left (List.getElem?_eq_some_iff.1 this).1]; exact this
  · intro fd' a hd
    rw [e6] at hd
    obtain ⟨l, hl, hle⟩ := h.descHeap fd' a hd
    have : a ≠ s.next := by rintro rfl; rw [hfresh] at hl; cases hl
    exact ⟨l, by rw [e2, upd_ne _ _ this]; exact hl, hle⟩
  · rw [e6, e7]; exact h.entDesc
  · rw [e6, e7]; exact h.descEnt
  · rw [e7]; exact h.nodup

theorem hist_open {s : St} (hd : Data s) (h : Hist s) {port maxLen func fd : Nat} (s' : St)
    (e1 : s'.socks = upd s.socks fd (some ⟨port, s.next, [], false⟩)) (e4 : s'.next = s.next + 1) (e5 : s'.sessions = s.sessions ++ [⟨port, maxLen, func⟩])
    (e6 : s'.arrived = s.arrived) (e7 : s'.calls = s.calls) : Hist s' := by
  refine ⟨?_, ?_, ?_⟩
  · intro x hx; rw [e6] at hx; rw [e4]; exact Nat.lt_succ_of_lt (h.arr x hx)
  · intro c hc; rw [e7] at hc; rw [e4]; exact Nat.lt_succ_of_lt (h.call c hc)
  · intro i se hse
    have ha : arrivedAt s' i = arrivedAt s i := by unfold arrivedAt; rw [e6]
    have hc : callsOf s' i = callsOf s i := by unfold callsOf; rw [e7]
    rw [ha, hc]
    rw [e5] at hse
    by_cases hi : i < s.sessions.length
    · rw [List.getElem?_append_left hi] at hse
      obtain ⟨t, r, h1, h2, h3⟩ := h.each i se hse
      refine ⟨t, r, h1, h2, fun fd' k hk hki => ?_⟩
      rw [e1] at hk
      by_cases hf : fd' = fd
      · subst hf
        rw [upd_self] at hk
        cases hk
        have := hd.len
        simp at hki
        omega
      · rw [upd_ne _ _ hf] at hk
        exact h3 fd' k hk hki
    · have hin : ∀ j, j = i → ¬ j < s.next := by rintro j rfl; rw [hd.len]; exact hi
      have z1 : arrivedAt s i = [] := by
        unfold arrivedAt
        rw [List.map_eq_nil_iff, List.filter_eq_nil_iff]
        intro x hx hxi
        exact hin x.1 (by simpa using hxi) (h.arr x hx)
      have z2 : callsOf s i = [] := by
        unfold callsOf
        rw [List.map_eq_nil_iff, List.filter_eq_nil_iff]
        intro x hx hxi
        exact hin x.sid (by simpa using hxi) (h.call x hx)
      refine ⟨[], [], by rw [z1]; rfl, by rw [z2]; rfl, fun fd' k hk hki => ?_⟩
      rw [e1] at hk
      by_cases hf : fd' = fd
      · subst hf
        rw [upd_self] at hk
        cases hk
        rfl
      · rw [upd_ne _ _ hf] at hk
        obtain ⟨l, hl, -⟩ := hd.sockHeap fd' k hk
        have := (List.getElem?_eq_some_iff.1 (hd.heapSess _ _ hl)).1
        rw [hki] at this
        exact absurd this hi

/-- Closing: the listener and its socket go. -/
theorem data_close {s : St} (h : Data s) {a : Nat} {l : Listener} (hl : s.heap a = some l) (hdn : s.descs l.fd = none) (s' : St)
    (e1 : s'.socks = upd s.socks l.fd none) (e2 : s'.heap = upd s.heap a none)
    (e3 : s'.ports = upd s.ports l.port none) (e4 : s'.next = s.next) (e5 : s'.sessions = s.sessions)
    (e6 : s'.descs = s.descs) (e7 : s'.entries = s.entries) : Data s' := by
  have hother : ∀ b m, s'.heap b = some m → b ≠ a ∧ s.heap b = some m := by
    intro b m hm
    rw [e2] at hm
    by_cases hb : b = a
    · subst hb; rw [upd_self] at hm; cases hm
    · rw [upd_ne _ _ hb] at hm; exact ⟨hb, hm⟩
  refine ⟨?_, ?_, ?_, ?_, ?_, ?_, ?_, ?_, ?_, ?_⟩
  · rw [e4, e5]; exact h.len
  · intro p b hpb
    rw [e3] at hpb
    by_cases hp : p = l.port
    · subst hp; rw [upd_self] at hpb; cases hpb
    · rw [upd_ne _ _ hp] at hpb
      obtain ⟨m, hm, hmp⟩ := h.portHeap p b hpb
      have : b ≠ a := by rintro rfl; rw [hl] at hm; cases hm; exact hp hmp.symm
      exact ⟨m, by rw [e2, upd_ne _ _ this]; exact hm, hmp⟩
  · intro b m hm
    obtain ⟨hb, hm⟩ := hother b m hm
    have : m.port ≠ l.port := fun e => hb ((h.inj hm hl).2 e)
    rw [e3, upd_ne _ _ this]; exact h.heapPort b m hm
  · intro b m hm
    obtain ⟨hb, hm⟩ := hother b m hm
    have : m.fd ≠ l.fd := fun e => hb ((h.inj hm hl).1 e)
    rw [e1, upd_ne _ _ this]; exact h.heapSock b m hm
  · intro fd k hk
    rw [e1] at hk
    by_cases hf : fd = l.fd
    · subst hf; rw [upd_self] at hk; cases hk
    · rw [upd_ne _ _ hf] at hk
      obtain ⟨m, hm, hme⟩ := h.sockHeap fd k hk
      have : k.sid ≠ a := by intro e; rw [e, hl] at hm; cases hm; exact hf hme.symm
      exact ⟨m, by rw [e2, upd_ne _ _ this]; exact hm, hme⟩
  · intro b m hm
    rw [e5]; exact h.heapSess b m (hother b m hm).2
  · intro fd b hd
    rw [e6] at hd
    obtain ⟨m, hm, hme⟩ := h.descHeap fd b hd
    have : b ≠ a := by rintro rfl; rw [hl] at hm; cases hm; rw [hme, hd] at hdn; cases hdn
    exact ⟨m, by rw [e2, upd_ne _ _ this]; exact hm, hme⟩
  · rw [e6, e7]; exact h.entDesc
  · rw [e6, e7]; exact h.descEnt
  · rw [e7]; exact h.nodup

/-- Fewer sockets, and nothing else. -/
theorem hist_less {s : St} (h : Hist s) (s' : St) (e1 : ∀ fd k, s'.socks fd = some k → s.socks fd = some k) (e4 : s'.next = s.next) (e5 : s'.sessions = s.sessions)
    (e6 : s'.arrived = s.arrived) (e7 : s'.calls = s.calls) : Hist s' := by
  refine ⟨?_, ?_, ?_⟩
  · rw [e4, e6]; exact h.arr
  · rw [e4, e7]; exact h.call
  · intro i se hse
    have ha : arrivedAt s' i = arrivedAt s i := by unfold arrivedAt; rw [e6]
    have hc : callsOf s' i = callsOf s i := by unfold callsOf; rw [e7]
    rw [ha, hc]
    rw [e5] at hse
    obtain ⟨t, r, h1, h2, h3⟩ := h.each i se hse
    exact ⟨t, r, h1, h2, fun fd k hk => h3 fd k (e1 fd k hk)⟩

theorem data_same {s : St} (h : Data s) (s' : St) (e1 : s'.socks = s.socks) (e2 : s'.heap = s.heap) (e3 : s'.ports = s.ports) (e4 : s'.next = s.next) (e5 : s'.sessions = s.sessions)
    (e6 : s'.descs = s.descs) (e7 : s'.entries.map Entry.fd = s.entries.map Entry.fd) : Data s' := by
  have hm : ∀ fd, (∃ e ∈ s'.entries, e.fd = fd) ↔ ∃ e ∈ s.entries, e.fd = fd := by
    intro fd
    have : fd ∈ s'.entries.map Entry.fd ↔ fd ∈ s.entries.map Entry.fd := by rw [e7]
    simpa only [List.mem_map] using this
  refine ⟨by rw [e4, e5]; exact h.len, by rw [e2, e3]; exact h.portHeap, by rw [e2, e3]; exact h.heapPort, by rw [e1, e2]; exact h.heapSock, by rw [e1, e2]; exact h.sockHeap,
    by rw [e2, e5]; exact h.heapSess, by rw [e2, e6]; exact h.descHeap, ?_, ?_, by rw [e7]; exact h.nodup⟩
  · intro e he
    obtain ⟨e', he', heq⟩ := (hm e.fd).1 ⟨e, he, rfl⟩
    rw [e6, ← heq]; exact h.entDesc e' he'
  · intro fd a hd
    rw [e6] at hd
    exact (hm fd).2 (h.descEnt fd a hd)

theorem count_le {es fs : List Entry} (h : es.Sublist fs) : count es ≤ count fs := h.countP_le

theorem upd_same {α : Type} (m : Nat → Option α) {k : Nat} {v : Option α} (h : m k = v) : upd m k v = m := by
  funext x
  by_cases hx : x = k
  · subst hx; rw [upd_self, h]
  · rw [upd_ne _ _ hx]

/-- A socket's queue and a listener's buffer change. -/
theorem data_touch {s : St} (h : Data s) {fd a : Nat} {k k' : Sock} {l l' : Listener} (hk : s.socks fd = some k) (hl : s.heap a = some l)
    (k1 : k'.sid = k.sid ∧ k'.port = k.port ∧ k'.err = k.err) (l1 : l'.fd = l.fd ∧ l'.port = l.port ∧ l'.maxSize = l.maxSize ∧ l'.func = l.func) (s' : St)
    (e1 : s'.socks = upd s.socks fd (some k')) (e2 : s'.heap = upd s.heap a (some l')) (e3 : s'.ports = s.ports) (e4 : s'.next = s.next) (e5 : s'.sessions = s.sessions)
    (e6 : s'.descs = s.descs) (e7 : s'.entries = s.entries) : Data s' := by
  have back : ∀ b m, s'.heap b = some m → ∃ m0, s.heap b = some m0 ∧ m.fd = m0.fd ∧ m.port = m0.port ∧ m.maxSize = m0.maxSize ∧ m.func = m0.func := by
    intro b m hm
    rw [e2] at hm
    by_cases hb : b = a
    · subst hb; rw [upd_self] at hm; cases hm; exact ⟨l, hl, l1⟩
    · rw [upd_ne _ _ hb] at hm; exact ⟨m, hm, rfl, rfl, rfl, rfl⟩
  have forth : ∀ b m0, s.heap b = some m0 → ∃ m, s'.heap b = some m ∧ m.fd = m0.fd ∧ m.port = m0.port := by
    intro b m hm
    rw [e2]
    by_cases hb : b = a
    · subst hb; rw [upd_self]; rw [hl] at hm; cases hm; exact ⟨l', rfl, l1.1, l1.2.1⟩
    · rw [upd_ne _ _ hb]; exact ⟨m, hm, rfl, rfl⟩
  refine ⟨by rw [e4, e5]; exact h.len, ?_, ?_, ?_, ?_, ?_, ?_, by rw [e6, e7]; exact h.entDesc, by rw [e6, e7]; exact h.descEnt, by rw [e7]; exact h.nodup⟩
  · intro p b hp
    rw [e3] at hp
    obtain ⟨m, hm, hmp⟩ := h.portHeap p b hp
    obtain ⟨m', h1, -, h3⟩ := forth b m hm
    exact ⟨m', h1, h3.trans hmp⟩
  · intro b m hm
    obtain ⟨m0, h1, h2, h3, -⟩ := back b m hm
    rw [e3, h3]; exact h.heapPort b m0 h1
  · intro b m hm
    obtain ⟨m0, h1, h2, h3, -⟩ := back b m hm
    obtain ⟨k0, g1, g2, g3, g4⟩ := h.heapSock b m0 h1
    rw [e1, h2]
    by_cases hf : m0.fd = fd
    · rw [hf, upd_self]
      rw [hf, hk] at g1
      cases g1
      exact ⟨k', rfl, k1.1.trans g2, k1.2.1.trans (g3.trans h3.symm), k1.2.2.trans g4⟩
    · rw [upd_ne _ _ hf]
      exact ⟨k0, g1, g2, g3.trans h3.symm, g4⟩
  · intro fd' k0 hk0
    rw [e1] at hk0
    by_cases hf : fd' = fd
    · subst hf
      rw [upd_self] at hk0
      cases hk0
      obtain ⟨m, hm, hmf⟩ := h.sockHeap fd' k hk
      obtain ⟨m', h1, h2, -⟩ := forth _ m hm
      exact ⟨m', by rw [k1.1]; exact h1, h2.trans hmf⟩
    · rw [upd_ne _ _ hf] at hk0
      obtain ⟨m, hm, hmf⟩ := h.sockHeap fd' k0 hk0
      obtain ⟨m', h1, h2, -⟩ := forth _ m hm
      exact ⟨m', h1, h2.trans hmf⟩
  · intro b m hm
    obtain ⟨m0, h1, h2, h3, h4, h5⟩ := back b m hm
    rw [e5, h3, h4, h5]; exact h.heapSess b m0 h1
  · intro fd' b hd
    rw [e6] at hd
    obtain ⟨m, hm, hmf⟩ := h.descHeap fd' b hd
    obtain ⟨m', h1, h2, -⟩ := forth _ m hm
    exact ⟨m', h1, h2.trans hmf⟩

theorem phase_congr {s : St} (h : Phase s) (s' : St) (e1 : s'.started = s.started) (e2 : s'.joinable = s.joinable) (e3 : s'.writeOpen = s.writeOpen) (e4 : s'.readOpen = s.readOpen)
    (e5 : s'.caller = s.caller) (e6 : s'.pipe = s.pipe) (e7 : s'.sem = s.sem) (e8 : s'.ports = s.ports)
    (p1 : s.pc = .off → s'.pc = .off) (p2 : s.pc = .gone → s'.pc = .gone) (p3 : Live s → Live s')
    (hn : ∀ a, s.heap a = none → s'.heap a = none) (hb : ∀ p, AllBut s p → AllBut s' p) (he : s.entries = [] → s'.entries = []) (hd : s'.descs = s.descs) : Phase s' := by
  cases h with
  | off a1 a2 a3 a4 a5 a6 a7 => exact .off (e1.trans a1) (p1 a2) (e5.trans a3) (e6.trans a4) (e7.trans a5) (fun a => hn a (a6 a)) (he a7)
  | idle a1 a2 a3 a4 a5 a6 a7 a8 a9 => exact .idle (e1.trans a1) (e2.trans a2) (e3.trans a3) (e4.trans a4) (p3 a5) (e5.trans a6) (e6.trans a7) (e7.trans a8) (hb _ a9)
  | opening p a1 a2 a3 a4 a5 a6 a7 a8 =>
    refine .opening p (e1.trans a1) (e2.trans a2) (e3.trans a3) (e4.trans a4) (p3 a5) (e5.trans a6) (by rw [e8]; exact a7) ?_
    rw [e6, e7]
    exact a8.imp (fun ⟨x, y, z⟩ => ⟨x, y, hb _ z⟩) (fun ⟨x, y, z⟩ => ⟨x, y, hb _ z⟩)
  | closing p a1 a2 a3 a4 a5 a6 a7 a8 =>
    refine .closing p (e1.trans a1) (e2.trans a2) (e3.trans a3) (e4.trans a4) (p3 a5) (e5.trans a6) (by rw [e8]; exact a7) ?_
    rw [e6, e7]
    exact a8.imp (fun ⟨x, y, z⟩ => ⟨x, y, hb _ z⟩) (fun ⟨x, y, z⟩ => ⟨x, y, hb _ z⟩)
  | stopping a1 a2 a3 a4 a5 a6 a7 =>
    refine .stopping (e1.trans a1) (e2.trans a2) (e3.trans a3) (e5.trans a4) (e6.trans a5) (e7.trans a6) ?_
    exact a7.imp (fun ⟨x, y⟩ => ⟨p3 x, hb _ y⟩) (fun ⟨x, y, z⟩ => ⟨p2 x, by rw [hd]; exact y, he z⟩)
  | stopped a1 a2 a3 a4 a5 a6 a7 a8 => exact .stopped (e1.trans a1) (e2.trans a2) (e3.trans a3) (p2 a4) (e5.trans a5) (e6.trans a6) (e7.trans a7) (fun a => hn a (a8 a))

theorem inv_rets {s : St} (h : Inv s) (r : List Ret) : Inv { s with rets := r } :=
  ⟨h.ok, h.good, data_same h.data _ rfl rfl rfl rfl rfl rfl rfl, hist_less h.hist _ (fun _ _ x => x) rfl rfl rfl rfl, h.scan,
    phase_congr h.phase _ rfl rfl rfl rfl rfl rfl rfl rfl id id id (fun _ x => x) (fun _ x => x) id rfl⟩

/-- The event thread moves on. -/
theorem inv_pc {s : St} (h : Inv s) (pc : Pc) (hl : Live s) (hp : pc ≠ .off ∧ pc ≠ .gone) (hs : Scan { s with pc := pc }) : Inv { s with pc := pc } :=
  ⟨h.ok, h.good, data_same h.data _ rfl rfl rfl rfl rfl rfl rfl, hist_less h.hist _ (fun _ _ x => x) rfl rfl rfl rfl, hs,
    phase_congr h.phase _ rfl rfl rfl rfl rfl rfl rfl rfl (fun e => absurd e hl.1) (fun e => absurd e hl.2) (fun _ => hp) (fun _ x => x) (fun _ x => x) id rfl⟩

/-- A datagram is read. -/
theorem inv_receive {s : St} (h : Inv s) {fd a : Nat} {l : Listener} {k : Sock} {d : Dgram} {q : List Dgram} (hl : s.heap a = some l) (hlf : l.fd = fd) (hk : s.socks fd = some k)
    (hq : k.queue = d :: q) (hlive : Live s) (pc : Pc) (hp : pc ≠ .off ∧ pc ≠ .gone) (hs : Scan { s.receive fd a l k d q with pc := pc }) : Inv { s.receive fd a l k d q with pc := pc } := by
  have hka : k.sid = a := by
    obtain ⟨k0, h1, h2, -⟩ := h.data.heapSock a l hl
    rw [hlf, hk] at h1; cases h1; exact h2
  have hse := h.data.heapSess a l hl
  refine ⟨h.ok, h.good, ?_, ?_, hs, ?_⟩
  · exact data_touch h.data hk hl (k' := { k with queue := q }) (l' := { l with addr := 16 }) ⟨rfl, rfl, rfl⟩ ⟨rfl, rfl, rfl, rfl⟩ _ rfl rfl rfl rfl rfl rfl rfl
  · have hal : a < s.next := by rw [h.data.len]; exact (List.getElem?_eq_some_iff.1 hse).1
    refine ⟨h.hist.arr, ?_, ?_⟩
    · intro c hc
      simp only [St.receive] at hc
      split at hc
      · exact h.hist.call c hc
      · rcases List.mem_append.1 hc with hc | hc
        · exact h.hist.call c hc
        · rw [List.mem_singleton.1 hc]; exact hal
    · intro i se hi
      obtain ⟨t, r, h1, h2, h3⟩ := h.hist.each i se hi
      by_cases hia : i = a
      · subst hia
        have hi' : s.sessions[i]? = some se := hi
        rw [hse] at hi'
        have hse' := (Option.some.inj hi').symm
        have hr := h3 fd k hk hka
        rw [hq] at hr
        refine ⟨t ++ [d], q, ?_, ?_, ?_⟩
        · show arrivedAt s i = _
          rw [h1, ← hr]; simp
        · rw [List.filterMap_append, ← h2]
          unfold callsOf St.receive
          subst hse'
          by_cases he : d.bytes.take l.maxSize = []
          · simp [he, deliver]
          · simp [he, deliver]
        · intro fd' k0 hk0 hs0
          simp only [St.receive] at hk0
          by_cases hf : fd' = fd
          · subst hf; rw [upd_self] at hk0; cases hk0; rfl
          · rw [upd_ne _ _ hf] at hk0
            exfalso
            obtain ⟨m, hm, hmf⟩ := h.data.sockHeap fd' k0 hk0
            rw [hs0, hl] at hm
            cases hm
            exact hf (hmf.symm.trans hlf)
      · refine ⟨t, r, h1, ?_, ?_⟩
        · rw [← h2]
          unfold callsOf St.receive
          by_cases he : d.bytes.take l.maxSize = []
          · simp [he]
          · simp [he, Ne.symm hia]
        · intro fd' k0 hk0 hs0
          simp only [St.receive] at hk0
          by_cases hf : fd' = fd
          · subst hf; rw [upd_self] at hk0; cases hk0
            exact absurd (hs0.symm.trans hka) hia
          · rw [upd_ne _ _ hf] at hk0
            exact h3 fd' k0 hk0 hs0
  · refine phase_congr h.phase _ rfl rfl rfl rfl rfl rfl rfl rfl (fun e => absurd e hlive.1) (fun e => absurd e hlive.2) (fun _ => hp) ?_ ?_ id rfl
    · intro b hb
      simp only [St.receive]
      rw [upd_ne _ _ (by rintro rfl; rw [hl] at hb; cases hb)]; exact hb
    · intro p hp b m hm
      simp only [St.receive] at hm ⊢
      by_cases hb : b = a
      · subst hb; rw [upd_self] at hm; cases hm; exact hp b l hl
      · rw [upd_ne _ _ hb] at hm; exact hp b m hm

theorem inv_arrive {s s' : St} (h : Inv s) {fd : Nat} {d : Dgram} (hs : s.arrive fd d = some s') : Inv s' := by
  unfold St.arrive at hs
  cases hk : s.socks fd with
  | none => rw [hk] at hs; cases hs
  | some k =>
    rw [hk] at hs
    obtain ⟨l, hl, hlf⟩ := h.data.sockHeap fd k hk
    cases hs
    have hgood : ∀ es, Good s es → Good { s with socks := upd s.socks fd (some { k with queue := k.queue ++ [d] }), arrived := s.arrived ++ [(k.sid, d)] } es := by
      intro es hg e he
      obtain ⟨g1, g2⟩ := hg e he
      refine ⟨g1, fun hr => ?_⟩
      obtain ⟨k0, hk0, hne⟩ := g2 hr
      by_cases hf : e.fd = fd
      · exact ⟨{ k with queue := k.queue ++ [d] }, by rw [hf]; exact upd_self _ _ _, by simp⟩
      · exact ⟨k0, by simp only; rw [upd_ne _ _ hf]; exact hk0, hne⟩
    refine ⟨h.ok, h.good, ?_, ?_, ?_, ?_⟩
    · exact data_touch h.data hk hl (k' := { k with queue := k.queue ++ [d] }) (l' := l) ⟨rfl, rfl, rfl⟩ ⟨rfl, rfl, rfl, rfl⟩ _ rfl (upd_same _ hl).symm rfl rfl rfl rfl rfl
    · have hkl : k.sid < s.next := by rw [h.data.len]; exact (List.getElem?_eq_some_iff.1 (h.data.heapSess _ _ hl)).1
      refine ⟨?_, h.hist.call, ?_⟩
      · intro x hx
        rcases List.mem_append.1 hx with hx | hx
        · exact h.hist.arr x hx
        · rw [List.mem_singleton.1 hx]; exact hkl
      · intro i se hi
        obtain ⟨t, r, h1, h2, h3⟩ := h.hist.each i se hi
        by_cases hik : i = k.sid
        · subst hik
          refine ⟨t, r ++ [d], ?_, h2, ?_⟩
          · rw [← List.append_assoc, ← h1]
            unfold arrivedAt
            simp
          · intro fd' k0 hk0 hs0
            simp only at hk0
            by_cases hf : fd' = fd
            · subst hf; rw [upd_self] at hk0; cases hk0
              rw [h3 fd' k hk rfl]
            · rw [upd_ne _ _ hf] at hk0
              exfalso
              obtain ⟨m, hm, hmf⟩ := h.data.sockHeap fd' k0 hk0
              rw [hs0, hl] at hm
              cases hm
              exact hf (hmf.symm.trans hlf)
        · refine ⟨t, r, ?_, h2, ?_⟩
          · rw [← h1]
            unfold arrivedAt
            simp [Ne.symm hik]
          · intro fd' k0 hk0 hs0
            simp only at hk0
            by_cases hf : fd' = fd
            · subst hf; rw [upd_self] at hk0; cases hk0
              exact absurd hs0.symm hik
            · rw [upd_ne _ _ hf] at hk0
              exact h3 fd' k0 hk0 hs0
    · have := h.scan
      unfold Scan at this ⊢
      simp only
      split
      · rename_i ctl n he
        rw [he] at this
        exact ⟨hgood _ this.1, this.2⟩
      · rename_i todo n he
        rw [he] at this
        exact ⟨this.1, hgood _ this.2.1, this.2.2⟩
      · trivial
    · exact phase_congr h.phase _ rfl rfl rfl rfl rfl rfl rfl rfl id id id (fun _ x => x) (fun _ x => x) id rfl

theorem Data.ent {s : St} (h : Data s) {e : Entry} (he : e ∈ s.entries) :
    ∃ a l k, s.descs e.fd = some a ∧ s.heap a = some l ∧ l.fd = e.fd ∧ s.socks e.fd = some k ∧ k.sid = a ∧ k.err = false := by
  cases hd : s.descs e.fd with
  | none => exact absurd hd (h.entDesc e he)
  | some a =>
    obtain ⟨l, hl, hlf⟩ := h.descHeap _ _ hd
    obtain ⟨k, hk, h1, -, h3⟩ := h.heapSock a l hl
    rw [hlf] at hk
    exact ⟨a, l, k, rfl, hl, hlf, hk, h1, h3⟩

theorem look_fd (s : St) (e : Entry) : (s.look e).fd = e.fd := by
  unfold St.look; split <;> rfl

theorem look_map (s : St) (es : List Entry) : (es.map s.look).map Entry.fd = es.map Entry.fd := by
  rw [List.map_map]
  apply List.map_congr_left
  intro e _
  exact look_fd s e

theorem good_look {s : St} (h : Data s) : Good s (s.entries.map s.look) := by
  intro e he
  obtain ⟨e0, he0, rfl⟩ := List.mem_map.1 he
  obtain ⟨a, l, k, -, -, -, hk, -, hke⟩ := h.ent he0
  unfold St.look
  rw [hk]
  refine ⟨hke, fun hr => ⟨k, hk, ?_⟩⟩
  intro hq
  simp [hq] at hr

theorem inv_poll {s : St} (h : Inv s) (hpc : s.pc = .poll) (n : Nat) (hn : n = s.nReady) :
    Inv { s with entries := s.entries.map s.look, pc := .control s.ctl n } := by
  have hlive : Live s := by unfold Live; rw [hpc]; simp
  refine ⟨h.ok, h.good, data_same h.data _ rfl rfl rfl rfl rfl rfl (look_map s _), hist_less h.hist _ (fun _ _ x => x) rfl rfl rfl rfl, ?_, ?_⟩
  · refine ⟨good_look h.data, hn, fun hc => ?_⟩
    simp only [St.ctl, Bool.or_eq_true, Bool.not_eq_true', List.isEmpty_eq_false_iff] at hc
    exact hc
  · exact phase_congr h.phase _ rfl rfl rfl rfl rfl rfl rfl rfl (fun e => absurd e hlive.1) (fun e => absurd e hlive.2) (fun _ => by unfold Live; simp) (fun _ x => x) (fun _ x => x)
      (fun e => by simp [e]) rfl

theorem inv_exit {s : St} (h : Inv s) (hl : Live s) (hw : s.writeOpen = false) : Inv s.exit := by
  have hd : Data s.exit := ⟨h.data.len, h.data.portHeap, h.data.heapPort, h.data.heapSock, h.data.sockHeap, h.data.heapSess, fun _ _ e => by (cases e), fun _ e => by (cases e), fun _ _ e => by (cases e), List.nodup_nil⟩
  refine ⟨h.ok, h.good, hd, hist_less h.hist _ (fun _ _ x => x) rfl rfl rfl rfl, trivial, ?_⟩
  cases h.phase with
  | off a1 a2 => exact absurd a2 hl.1
  | idle a1 a2 a3 => rw [hw] at a3; cases a3
  | opening p a1 a2 a3 => rw [hw] at a3; cases a3
  | closing p a1 a2 a3 => rw [hw] at a3; cases a3
  | stopping a1 a2 a3 a4 a5 a6 a7 => exact .stopping a1 a2 a3 a4 a5 a6 (.inr ⟨rfl, fun _ => rfl, rfl⟩)
  | stopped a1 a2 a3 a4 => exact absurd a4 hl.2

theorem good_append {s : St} {es fs : List Entry} (h1 : Good s es) (h2 : Good s fs) : Good s (es ++ fs) := by
  intro e he
  rcases List.mem_append.1 he with h | h
  · exact h1 e h
  · exact h2 e h

theorem inv_add {s : St} (h : Inv s) {n p : Nat} (hpc : s.pc = .control true n) (hc : s.caller = .opening p) (hpipe : s.pipe = [.add p]) (ha : AllBut s (some p)) (hsem : s.sem = 0)
    (hp : s.ports p ≠ none) : ∃ s1, ({ s with pipe := [] } : St).control (.add p) = s1 ∧ Inv { s1 with pc := .scan s1.entries (n - 1) } := by
  refine ⟨_, rfl, ?_⟩
  obtain ⟨a, hpa⟩ := Option.ne_none_iff_exists'.1 hp
  obtain ⟨l, hl, hlp⟩ := h.data.portHeap p a hpa
  have hdn : s.descs l.fd = none := by rw [ha a l hl, hlp]; simp
  have e : ({ s with pipe := [] } : St).control (.add p) = { s with pipe := [], descs := upd s.descs l.fd (some a), entries := s.entries ++ [⟨l.fd, false, false⟩], sem := s.sem + 1 } := by
    simp only [St.control, St.addListener, hpa, hl]
  rw [e]
  have hscan := h.scan
  unfold Scan at hscan
  rw [hpc] at hscan
  obtain ⟨hg, hn, -⟩ := hscan
  have hnew : ∀ e ∈ s.entries, e.fd ≠ l.fd := fun e he hf => h.data.entDesc e he (by rw [hf]; exact hdn)
  have hlive : Live s := by unfold Live; rw [hpc]; simp
  refine ⟨h.ok, h.good, ?_, hist_less h.hist _ (fun _ _ x => x) rfl rfl rfl rfl, ?_, ?_⟩
  · refine ⟨h.data.len, h.data.portHeap, h.data.heapPort, h.data.heapSock, h.data.sockHeap, h.data.heapSess, ?_, ?_, ?_, ?_⟩
    · intro fd b hb
      simp only at hb
      by_cases hf : fd = l.fd
      · subst hf; rw [upd_self] at hb; cases hb; exact ⟨l, hl, rfl⟩
      · rw [upd_ne _ _ hf] at hb; exact h.data.descHeap fd b hb
    · intro e he
      simp only at he ⊢
      rcases List.mem_append.1 he with he | he
      · rw [upd_ne _ _ (hnew e he)]; exact h.data.entDesc e he
      · rw [List.mem_singleton.1 he]; simp only; rw [upd_self]; simp
    · intro fd b hb
      simp only at hb ⊢
      by_cases hf : fd = l.fd
      · exact ⟨⟨l.fd, false, false⟩, by simp, hf.symm⟩
      · rw [upd_ne _ _ hf] at hb
        obtain ⟨e, he, hef⟩ := h.data.descEnt fd b hb
        exact ⟨e, List.mem_append_left _ he, hef⟩
    · simp only [List.map_append, List.map_cons, List.map_nil]
      rw [List.nodup_append]
      refine ⟨h.data.nodup, by simp, ?_⟩
      intro x hx y hy
      obtain ⟨e, he, rfl⟩ := List.mem_map.1 hx
      rw [List.mem_singleton.1 hy]
      exact hnew e he
  · refine ⟨List.suffix_refl _, good_append hg ?_, ?_⟩
    · intro e he
      rw [List.mem_singleton.1 he]
      exact ⟨rfl, fun h => by (cases h)⟩
    · simp only [count, List.countP_append]
      have : List.countP Entry.any [(⟨l.fd, false, false⟩ : Entry)] = 0 := rfl
      rw [this]
      simp only [count] at hn
      simp at hn
      omega
  · cases h.phase with
    | off a1 a2 => exact absurd a2 hlive.1
    | idle a1 a2 a3 a4 a5 a6 => rw [hc] at a6; cases a6
    | closing p a1 a2 a3 a4 a5 a6 => rw [hc] at a6; cases a6
    | stopping a1 a2 a3 a4 => rw [hc] at a4; cases a4
    | stopped a1 a2 a3 a4 => exact absurd a4 hlive.2
    | opening q a1 a2 a3 a4 a5 a6 a7 a8 =>
      refine .opening p a1 a2 a3 a4 (by unfold Live; simp) hc hp (.inr ⟨rfl, by simp [hsem], ?_⟩)
      intro b m hm
      have := ha b m hm
      simp only at hm ⊢
      by_cases hb : b = a
      · subst hb; rw [hl] at hm; cases hm; rw [upd_self]; simp
      · rw [upd_ne _ _ (fun hf => hb ((h.data.inj hm hl).1 hf)), this]
        have : m.port ≠ p := fun hmp => hb ((h.data.inj hm hl).2 (hmp.trans hlp.symm))
        simp [this]

theorem inv_remove {s : St} (h : Inv s) {n p : Nat} (hpc : s.pc = .control true n) (hc : s.caller = .closing p) (hpipe : s.pipe = [.remove p]) (ha : AllBut s none) (hsem : s.sem = 0)
    (hp : s.ports p ≠ none) : ∃ s1, ({ s with pipe := [] } : St).control (.remove p) = s1 ∧ Inv { s1 with pc := .scan s1.entries (n - 1) } := by
  refine ⟨_, rfl, ?_⟩
  obtain ⟨a, hpa⟩ := Option.ne_none_iff_exists'.1 hp
  obtain ⟨l, hl, hlp⟩ := h.data.portHeap p a hpa
  have hds : s.descs l.fd = some a := by rw [ha a l hl]; simp
  obtain ⟨e0, he0, hef0⟩ := h.data.descEnt _ _ hds
  have hany : s.entries.any (fun e => e.fd == l.fd) = true := List.any_eq_true.2 ⟨e0, he0, by simp [hef0]⟩
  have e : ({ s with pipe := [] } : St).control (.remove p) =
      { s with pipe := [], entries := s.entries.eraseP (fun e => e.fd == l.fd), descs := upd s.descs l.fd none, sem := s.sem + 1 } := by
    simp only [St.control, St.removeListener, hpa, hl, hany, if_true]
  rw [e]
  have hscan := h.scan
  unfold Scan at hscan
  rw [hpc] at hscan
  obtain ⟨hg, hn, -⟩ := hscan
  have hlive : Live s := by unfold Live; rw [hpc]; simp
  have hsub := List.eraseP_sublist (p := fun e : Entry => e.fd == l.fd) (l := s.entries)
  have hkeep : ∀ e, e ∈ s.entries.eraseP (fun e => e.fd == l.fd) → e.fd ≠ l.fd := by
    have gen : ∀ es : List Entry, (es.map Entry.fd).Nodup → ∀ e, e ∈ es.eraseP (fun e => e.fd == l.fd) → e.fd ≠ l.fd := by
      intro es
      induction es with
      | nil => intro _ e he; cases he
      | cons x es ih =>
        intro hnd e he hf
        rw [List.map_cons, List.nodup_cons] at hnd
        by_cases hx : x.fd = l.fd
        · rw [List.eraseP_cons_of_pos (by simp [hx])] at he
          exact hnd.1 (List.mem_map.2 ⟨e, he, hf.trans hx.symm⟩)
        · rw [List.eraseP_cons_of_neg (by simp [hx])] at he
          rcases List.mem_cons.1 he with rfl | he
          · exact hx hf
          · exact ih hnd.2 e he hf
    exact gen s.entries h.data.nodup
  refine ⟨h.ok, h.good, ?_, hist_less h.hist _ (fun _ _ x => x) rfl rfl rfl rfl, ?_, ?_⟩
  · refine ⟨h.data.len, h.data.portHeap, h.data.heapPort, h.data.heapSock, h.data.sockHeap, h.data.heapSess, ?_, ?_, ?_, ?_⟩
    · intro fd b hb
      simp only at hb
      by_cases hf : fd = l.fd
      · subst hf; rw [upd_self] at hb; cases hb
      · rw [upd_ne _ _ hf] at hb; exact h.data.descHeap fd b hb
    · intro e he
      simp only at he ⊢
      rw [upd_ne _ _ (hkeep e he)]; exact h.data.entDesc e (hsub.mem he)
    · intro fd b hb
      simp only at hb ⊢
      by_cases hf : fd = l.fd
      · subst hf; rw [upd_self] at hb; cases hb
      · rw [upd_ne _ _ hf] at hb
        obtain ⟨e, he, hef⟩ := h.data.descEnt fd b hb
        refine ⟨e, ?_, hef⟩
        rw [List.mem_eraseP_of_neg (by simp [hef, hf])]
        exact he
    · exact h.data.nodup.sublist (hsub.map _)
  · refine ⟨List.suffix_refl _, fun e he => hg e (hsub.mem he), ?_⟩
    have := count_le hsub
    simp at hn
    show count (s.entries.eraseP _) ≤ _
    omega
  · cases h.phase with
    | off a1 a2 => exact absurd a2 hlive.1
    | idle a1 a2 a3 a4 a5 a6 => rw [hc] at a6; cases a6
    | opening p a1 a2 a3 a4 a5 a6 => rw [hc] at a6; cases a6
    | stopping a1 a2 a3 a4 => rw [hc] at a4; cases a4
    | stopped a1 a2 a3 a4 => exact absurd a4 hlive.2
    | closing q a1 a2 a3 a4 a5 a6 a7 a8 =>
      refine .closing p a1 a2 a3 a4 (by unfold Live; simp) hc hp (.inr ⟨rfl, by simp [hsem], ?_⟩)
      intro b m hm
      have := ha b m hm
      simp only at hm ⊢
      by_cases hb : b = a
      · subst hb; rw [hl] at hm; cases hm; rw [upd_self, hlp]; simp
      · rw [upd_ne _ _ (fun hf => hb ((h.data.inj hm hl).1 hf)), this]
        have : m.port ≠ p := fun hmp => hb ((h.data.inj hm hl).2 (hmp.trans hlp.symm))
        simp [this]

theorem inv_one {s s' : St} (h : Inv s) {e : Entry} {todo : List Entry} {n : Nat} (hpc : s.pc = .scan (e :: todo) (n + 1)) (hs : s.one e todo (n + 1) = some s') : Inv s' := by
  have hlive : Live s := by unfold Live; rw [hpc]; simp
  have hscan := h.scan
  unfold Scan at hscan
  rw [hpc] at hscan
  obtain ⟨hsuf, hg, hn⟩ := hscan
  have hsuf' : todo <:+ s.entries := (List.suffix_cons e todo).trans hsuf
  unfold St.one at hs
  by_cases hany : e.any = false
  · rw [if_pos hany] at hs
    cases hs
    refine inv_pc h _ hlive (by simp) ⟨hsuf', fun x hx => hg x (List.mem_cons_of_mem _ hx), ?_⟩
    have : count (e :: todo) = count todo := by simp [count, List.countP_cons, hany]
    omega
  · rw [if_neg hany] at hs
    obtain ⟨a, l, k, hda, hl, hlf, hk, hks, hke⟩ := h.data.ent (hsuf.mem (by simp : e ∈ e :: todo))
    obtain ⟨herr, hr⟩ := hg e (by simp)
    have hready : e.ready = true := by
      simp only [Entry.any, herr, Bool.or_false, Bool.not_eq_false] at hany
      exact hany
    obtain ⟨k', hk', hne⟩ := hr hready
    rw [hk] at hk'
    cases hk'
    obtain ⟨d, q, hq⟩ : ∃ d q, k.queue = d :: q := by
      cases hqq : k.queue with
      | nil => exact absurd hqq hne
      | cons d q => exact ⟨d, q, rfl⟩
    have hh : s.handleReady e.fd a = some (s.receive e.fd a l k d q) := by
      unfold St.handleReady
      simp only [hl, hk, hq]
    simp only [hda, herr, Bool.false_eq_true, if_false, hh] at hs
    cases hs
    refine inv_receive h hl hlf hk hq hlive _ (by simp) ⟨hsuf', ?_, ?_⟩
    · intro x hx
      obtain ⟨g1, g2⟩ := hg x (List.mem_cons_of_mem _ hx)
      refine ⟨g1, fun hxr => ?_⟩
      obtain ⟨k0, hk0, hne0⟩ := g2 hxr
      have hnd : ((e :: todo).map Entry.fd).Nodup := h.data.nodup.sublist (hsuf.sublist.map _)
      rw [List.map_cons, List.nodup_cons] at hnd
      have hxe : x.fd ≠ e.fd := fun hf => hnd.1 (List.mem_map.2 ⟨x, hx, hf⟩)
      exact ⟨k0, by simp only [St.receive]; rw [upd_ne _ _ hxe]; exact hk0, hne0⟩
    · have : count (e :: todo) = count todo + 1 := by simp [count, List.countP_cons, Entry.any, hready]
      omega

theorem inv_loop {s s' : St} (h : Inv s) (hs : s.loop = some s') : Inv s' := by
  unfold St.loop at hs
  split at hs
  · cases hs
  · cases hs
  · rename_i hpc
    split at hs
    · cases hs
    · cases hs
      exact inv_poll h hpc _ rfl
  · rename_i n hpc
    cases hs
    have hscan := h.scan
    unfold Scan at hscan
    rw [hpc] at hscan
    refine inv_pc h _ (by unfold Live; rw [hpc]; simp) (by simp) ⟨List.suffix_refl _, hscan.1, ?_⟩
    have := hscan.2.1
    simp at this
    omega
  · rename_i n hpc
    have hscan := h.scan
    unfold Scan at hscan
    rw [hpc] at hscan
    have hlive : Live s := by unfold Live; rw [hpc]; simp
    split at hs
    · rename_i hpipe
      cases hs
      rcases hscan.2.2 rfl with hh | hh
      · exact absurd hpipe hh
      · exact inv_exit h hlive hh
    · rename_i r rest hpipe
      cases hs
      cases h.phase with
      | off a1 a2 => exact absurd a2 hlive.1
      | idle a1 a2 a3 a4 a5 a6 a7 => rw [hpipe] at a7; cases a7
      | stopping a1 a2 a3 a4 a5 => rw [hpipe] at a5; cases a5
      | stopped a1 a2 a3 a4 => exact absurd a4 hlive.2
      | opening p a1 a2 a3 a4 a5 a6 a7 a8 =>
        rcases a8 with ⟨b1, b2, b3⟩ | ⟨b1, -⟩
        · have := b1
          rw [hpipe] at this
          cases this
          obtain ⟨s1, e1, hi⟩ := inv_add h hpc a6 b1 b3 b2 a7
          rw [e1]; exact hi
        · rw [hpipe] at b1; cases b1
      | closing p a1 a2 a3 a4 a5 a6 a7 a8 =>
        rcases a8 with ⟨b1, b2, b3⟩ | ⟨b1, -⟩
        · have := b1
          rw [hpipe] at this
          cases this
          obtain ⟨s1, e1, hi⟩ := inv_remove h hpc a6 b1 b3 b2 a7
          rw [e1]; exact hi
        · rw [hpipe] at b1; cases b1
  · rename_i hpc
    cases hs
    exact inv_pc h _ (by unfold Live; rw [hpc]; simp) (by simp) trivial
  · rename_i hpc
    cases hs
    exact inv_pc h _ (by unfold Live; rw [hpc]; simp) (by simp) trivial
  · rename_i hpc
    exact inv_one h hpc hs

theorem AllBut.other {s : St} {p : Nat} (h : AllBut s (some p)) {a : Nat} {l : Listener} (hl : s.heap a = some l) (hp : l.port ≠ p) : s.descs l.fd = some a := by
  rw [h a l hl]; simp [hp]

theorem inv_start {s : St} (h : Inv s) : Inv s.start := by
  unfold St.start
  split
  · exact inv_rets h _
  · rename_i hst
    cases h.phase with
    | off a1 a2 a3 a4 a5 a6 a7 =>
      refine ⟨h.ok, h.good, data_same h.data _ rfl rfl rfl rfl rfl rfl rfl, hist_less h.hist _ (fun _ _ x => x) rfl rfl rfl rfl, trivial, ?_⟩
      refine .idle rfl rfl rfl rfl (by unfold Live; simp) a3 a4 a5 ?_
      intro a l hl
      rw [a6 a] at hl; cases hl
    | idle a1 => exact absurd a1 hst
    | opening _ a1 => exact absurd a1 hst
    | closing _ a1 => exact absurd a1 hst
    | stopping a1 => exact absurd a1 hst
    | stopped a1 => exact absurd a1 hst

theorem inv_stop {s : St} (h : Inv s) (hc : s.caller = .idle) (hp : s.writeOpen = true ∨ s.started = false) : Inv s.stop := by
  unfold St.stop
  cases h.phase with
  | off a1 => rw [if_pos a1]; exact inv_rets h _
  | idle a1 a2 a3 a4 a5 a6 a7 a8 a9 =>
    rw [if_neg (by rw [a1]; simp), if_neg (by rw [a3]; simp)]
    refine ⟨h.ok, h.good, data_same h.data _ rfl rfl rfl rfl rfl rfl rfl, hist_less h.hist _ (fun _ _ x => x) rfl rfl rfl rfl, ?_, ?_⟩
    · have := h.scan
      unfold Scan at this ⊢
      simp only
      split
      · rename_i ctl n he
        rw [he] at this
        exact ⟨this.1, this.2.1, fun _ => .inr trivial⟩
      · rename_i todo n he
        rw [he] at this
        exact this
      · trivial
    · exact .stopping a1 a2 rfl rfl a7 a8 (.inl ⟨a5, a9⟩)
  | opening p a1 a2 a3 a4 a5 a6 => rw [hc] at a6; cases a6
  | closing p a1 a2 a3 a4 a5 a6 => rw [hc] at a6; cases a6
  | stopping a1 a2 a3 a4 => rw [hc] at a4; cases a4
  | stopped a1 a2 a3 => rcases hp with hp | hp
                        · rw [a3] at hp; cases hp
                        · rw [a1] at hp; cases hp

theorem inv_open {s : St} (h : Inv s) (hc : s.caller = .idle) {port maxLen func : Nat} {fd : Option Nat} (hf : ∀ x, fd = some x → s.socks x = none) (hp : s.ports port = none) :
    Inv (s.openListener port maxLen func fd) := by
  unfold St.openListener
  cases h.phase with
  | off a1 => rw [if_pos a1]; exact inv_rets h _
  | opening p a1 a2 a3 a4 a5 a6 => rw [hc] at a6; cases a6
  | closing p a1 a2 a3 a4 a5 a6 => rw [hc] at a6; cases a6
  | stopping a1 a2 a3 a4 => rw [hc] at a4; cases a4
  | stopped a1 a2 a3 => rw [if_neg (by rw [a1]; simp), if_pos a2]; exact inv_rets h _
  | idle a1 a2 a3 a4 a5 a6 a7 a8 a9 =>
    rw [if_neg (by rw [a1]; simp), if_neg (by rw [a2]; simp)]
    cases fd with
    | none => exact inv_rets h _
    | some fd =>
      simp only
      rw [if_neg (by rw [a4]; simp), hp]
      simp only
      have hfree := hf fd rfl
      obtain ⟨hfd, hdn⟩ := h.data.freeFd hfree
      have hfresh := h.data.fresh
      refine ⟨h.ok, h.good, data_open h.data hfree hp _ rfl rfl rfl rfl rfl rfl rfl, hist_open h.data h.hist _ rfl rfl rfl rfl rfl, ?_, ?_⟩
      · have hgood : ∀ es, Good s es → ∀ e ∈ es, e.err = false ∧ (e.ready = true → ∃ k, upd s.socks fd (some (⟨port, s.next, [], false⟩ : Sock)) e.fd = some k ∧ k.queue ≠ []) := by
          intro es hg e he
          obtain ⟨g1, g2⟩ := hg e he
          refine ⟨g1, fun hr => ?_⟩
          obtain ⟨k, hk, hne⟩ := g2 hr
          have : e.fd ≠ fd := by intro hee; rw [hee, hfree] at hk; cases hk
          exact ⟨k, by rw [upd_ne _ _ this]; exact hk, hne⟩
        have := h.scan
        unfold Scan at this ⊢
        simp only
        split
        · rename_i ctl n he
          rw [he] at this
          exact ⟨hgood _ this.1, this.2.1, fun _ => .inl (by simp)⟩
        · rename_i todo n he
          rw [he] at this
          exact ⟨this.1, hgood _ this.2.1, this.2.2⟩
        · trivial
      · refine .opening port a1 a2 a3 a4 a5 rfl ?_ (.inl ⟨by simp [a7], a8, ?_⟩)
        · simp only; rw [upd_self]; simp
        · intro b m hm
          simp only at hm ⊢
          by_cases hb : b = s.next
          · subst hb; rw [upd_self] at hm; cases hm; simp [hdn]
          · rw [upd_ne _ _ hb] at hm
            rw [a9 b m hm]
            have : m.port ≠ port := by
              intro e
              have := h.data.heapPort b m hm
              rw [e, hp] at this; cases this
            simp [this]

theorem inv_close {s : St} (h : Inv s) (hc : s.caller = .idle) {port : Nat} (hp : s.ports port ≠ none ∨ s.started = false) : Inv (s.closeListener port) := by
  unfold St.closeListener
  cases h.phase with
  | off a1 => rw [if_pos a1]; exact inv_rets h _
  | opening p a1 a2 a3 a4 a5 a6 => rw [hc] at a6; cases a6
  | closing p a1 a2 a3 a4 a5 a6 => rw [hc] at a6; cases a6
  | stopping a1 a2 a3 a4 => rw [hc] at a4; cases a4
  | stopped a1 a2 a3 a4 a5 a6 a7 a8 =>
    rcases hp with hp | hp
    · obtain ⟨a, ha⟩ := Option.ne_none_iff_exists'.1 hp
      obtain ⟨l, hl, -⟩ := h.data.portHeap _ _ ha
      rw [a8 a] at hl; cases hl
    · rw [a1] at hp; cases hp
  | idle a1 a2 a3 a4 a5 a6 a7 a8 a9 =>
    have hp' : s.ports port ≠ none := by
      rcases hp with hp | hp
      · exact hp
      · rw [a1] at hp; cases hp
    rw [if_neg (by rw [a1]; simp), if_neg (by rw [a2]; simp), if_neg (by rw [a4]; simp)]
    refine ⟨h.ok, h.good, data_same h.data _ rfl rfl rfl rfl rfl rfl rfl, hist_less h.hist _ (fun _ _ x => x) rfl rfl rfl rfl, ?_, ?_⟩
    · have := h.scan
      unfold Scan at this ⊢
      simp only
      split
      · rename_i ctl n he
        rw [he] at this
        exact ⟨this.1, this.2.1, fun _ => .inl (by simp)⟩
      · rename_i todo n he
        rw [he] at this
        exact this
      · trivial
    · exact .closing port a1 a2 a3 a4 a5 rfl hp' (.inl ⟨by simp [a7], a8, a9⟩)

/-- A call of `closeListener` comes to its end: what has gone. -/
theorem finish_close {s : St} (h : Inv s) {p : Nat} (hc : s.caller = .closing p) (hs : s.sem ≠ 0) : ∃ a l, s.ports p = some a ∧ s.heap a = some l ∧ l.port = p ∧ s.descs l.fd = none ∧
    ({ s with sem := 0 } : St).finishClose p = { s with sem := 0, socks := upd s.socks l.fd none, heap := upd s.heap a none, ports := upd s.ports p none, caller := .idle, rets := s.rets ++ [.closed p] } := by
  cases h.phase with
  | off a1 a2 a3 => rw [hc] at a3; cases a3
  | idle a1 a2 a3 a4 a5 a6 => rw [hc] at a6; cases a6
  | opening p a1 a2 a3 a4 a5 a6 => rw [hc] at a6; cases a6
  | stopping a1 a2 a3 a4 => rw [hc] at a4; cases a4
  | stopped a1 a2 a3 a4 a5 => rw [hc] at a5; cases a5
  | closing q a1 a2 a3 a4 a5 a6 a7 a8 =>
    rw [hc] at a6
    cases a6
    rcases a8 with ⟨-, b2, -⟩ | ⟨b1, b2, b3⟩
    · exact absurd b2 hs
    · obtain ⟨a, hpa⟩ := Option.ne_none_iff_exists'.1 a7
      obtain ⟨l, hl, hlp⟩ := h.data.portHeap p a hpa
      refine ⟨a, l, hpa, hl, hlp, by rw [b3 a l hl, hlp]; simp, ?_⟩
      simp only [St.finishClose, hpa, hl]

theorem inv_wake {s s' : St} (h : Inv s) (hs : s.wake = some s') : Inv s' := by
  have hcase := h.phase
  unfold St.wake at hs
  split at hs
  · cases hs
  · rename_i n hsem
    split at hs
    · rename_i p hc
      cases hs
      cases hcase with
      | off a1 a2 a3 => rw [hc] at a3; cases a3
      | idle a1 a2 a3 a4 a5 a6 => rw [hc] at a6; cases a6
      | closing p a1 a2 a3 a4 a5 a6 => rw [hc] at a6; cases a6
      | stopping a1 a2 a3 a4 => rw [hc] at a4; cases a4
      | stopped a1 a2 a3 a4 a5 => rw [hc] at a5; cases a5
      | opening q a1 a2 a3 a4 a5 a6 a7 a8 =>
        rcases a8 with ⟨-, b2, -⟩ | ⟨b1, b2, b3⟩
        · rw [hsem] at b2; cases b2
        · rw [hsem] at b2
          have hn : n = 0 := by omega
          subst hn
          exact ⟨h.ok, h.good, data_same h.data _ rfl rfl rfl rfl rfl rfl rfl, hist_less h.hist _ (fun _ _ x => x) rfl rfl rfl rfl, h.scan,
            .idle a1 a2 a3 a4 a5 rfl b1 rfl b3⟩
    · rename_i p hc
      cases hs
      obtain ⟨a, l, hpa, hl, hlp, hdn, hfin⟩ := finish_close h hc (by rw [hsem]; simp)
      have hn : n = 0 := by
        cases hcase with
        | off a1 a2 a3 => rw [hc] at a3; cases a3
        | idle a1 a2 a3 a4 a5 a6 => rw [hc] at a6; cases a6
        | opening p a1 a2 a3 a4 a5 a6 => rw [hc] at a6; cases a6
        | stopping a1 a2 a3 a4 => rw [hc] at a4; cases a4
        | stopped a1 a2 a3 a4 a5 => rw [hc] at a5; cases a5
        | closing q a1 a2 a3 a4 a5 a6 a7 a8 =>
          rcases a8 with ⟨-, b2, -⟩ | ⟨b1, b2, b3⟩ <;> omega
      subst hn
      rw [hfin]
      have hgood : ∀ es, es <:+ s.entries → Good s es → ∀ e ∈ es, e.err = false ∧ (e.ready = true → ∃ k, upd s.socks l.fd none e.fd = some k ∧ k.queue ≠ []) := by
        intro es hsuf hg e he
        obtain ⟨g1, g2⟩ := hg e he
        refine ⟨g1, fun hr => ?_⟩
        obtain ⟨k, hk, hne⟩ := g2 hr
        have : e.fd ≠ l.fd := fun hee => h.data.entDesc e (hsuf.mem he) (by rw [hee]; exact hdn)
        exact ⟨k, by rw [upd_ne _ _ this]; exact hk, hne⟩
      refine ⟨h.ok, h.good, data_close h.data hl hdn _ rfl rfl (by rw [hlp]) rfl rfl rfl rfl, hist_less h.hist _ ?_ rfl rfl rfl rfl, ?_, ?_⟩
      · intro fd k hk
        simp only at hk
        by_cases hf : fd = l.fd
        · subst hf; rw [upd_self] at hk; cases hk
        · rw [upd_ne _ _ hf] at hk; exact hk
      · have := h.scan
        unfold Scan at this ⊢
        simp only
        split
        · rename_i ctl n he
          rw [he] at this
          exact ⟨hgood _ (List.suffix_refl _) this.1, this.2⟩
        · rename_i todo n he
          rw [he] at this
          exact ⟨this.1, hgood _ this.1 this.2.1, this.2.2⟩
        · trivial
      · cases hcase with
        | off a1 a2 a3 => rw [hc] at a3; cases a3
        | idle a1 a2 a3 a4 a5 a6 => rw [hc] at a6; cases a6
        | opening p a1 a2 a3 a4 a5 a6 => rw [hc] at a6; cases a6
        | stopping a1 a2 a3 a4 => rw [hc] at a4; cases a4
        | stopped a1 a2 a3 a4 a5 => rw [hc] at a5; cases a5
        | closing q a1 a2 a3 a4 a5 a6 a7 a8 =>
          rw [hc] at a6
          cases a6
          rcases a8 with ⟨-, b2, -⟩ | ⟨b1, b2, b3⟩
          · rw [hsem] at b2; cases b2
          · refine .idle a1 a2 a3 a4 a5 rfl b1 rfl ?_
            intro b m hm
            simp only at hm ⊢
            by_cases hb : b = a
            · subst hb; rw [upd_self] at hm; cases hm
            · rw [upd_ne _ _ hb] at hm
              have hmp : m.port ≠ p := fun e => hb ((h.data.inj hm hl).2 (e.trans hlp.symm))
              rw [b3.other hm hmp]; simp
    · cases hs

/-- After `stop` there is nothing left. -/
theorem finish_stop {s : St} (h : Inv s) : (∀ fd, s.finishStop.socks fd = none) ∧ ∀ a, s.finishStop.heap a = none := by
  refine ⟨fun fd => ?_, fun a => ?_⟩
  · simp only [St.finishStop]
    cases hk : s.socks fd with
    | none => rfl
    | some k =>
      obtain ⟨l, hl, hlf⟩ := h.data.sockHeap fd k hk
      obtain ⟨k', hk', h1, h2, -⟩ := h.data.heapSock _ l hl
      rw [hlf, hk] at hk'
      cases hk'
      have := h.data.heapPort _ l hl
      simp only [h2, this, hl, hlf, if_true]
  · simp only [St.finishStop]
    cases hl : s.heap a with
    | none => rfl
    | some l => simp [h.data.heapPort a l hl]

theorem inv_joined {s : St} (h : Inv s) (hc : s.caller = .stopping) (hpc : s.pc = .gone) : Inv s.finishStop := by
  obtain ⟨f1, f2⟩ := finish_stop h
  cases h.phase with
  | off a1 a2 a3 => rw [hc] at a3; cases a3
  | idle a1 a2 a3 a4 a5 a6 => rw [hc] at a6; cases a6
  | opening p a1 a2 a3 a4 a5 a6 => rw [hc] at a6; cases a6
  | closing p a1 a2 a3 a4 a5 a6 => rw [hc] at a6; cases a6
  | stopped a1 a2 a3 a4 a5 => rw [hc] at a5; cases a5
  | stopping a1 a2 a3 a4 a5 a6 a7 =>
    rcases a7 with ⟨b, -⟩ | ⟨b1, b2, b3⟩
    · exact absurd hpc b.2
    · refine ⟨h.ok, h.good, ?_, hist_less h.hist _ (fun fd k hk => ?_) rfl rfl rfl rfl, ?_, .stopped a1 rfl a3 hpc rfl a5 a6 f2⟩
      · refine ⟨h.data.len, ?_, ?_, ?_, ?_, ?_, ?_, ?_, ?_, ?_⟩
        · intro p a hpa; cases hpa
        · intro a l hl; rw [f2 a] at hl; cases hl
        · intro a l hl; rw [f2 a] at hl; cases hl
        · intro fd k hk; rw [f1 fd] at hk; cases hk
        · intro a l hl; rw [f2 a] at hl; cases hl
        · intro fd a hd
          have : s.descs fd = some a := hd
          rw [b2 fd] at this; cases this
        · intro e he
          have : e ∈ s.entries := he
          rw [b3] at this; cases this
        · intro fd a hd
          have : s.descs fd = some a := hd
          rw [b2 fd] at this; cases this
        · exact h.data.nodup
      · rw [f1 fd] at hk; cases hk
      · show Scan s.finishStop
        unfold Scan
        have : s.finishStop.pc = .gone := hpc
        rw [this]
        trivial

theorem inv_step {s s' : St} (h : Inv s) {e : Ev} (hp : Proper s e) (hs : s.step e = some s') : Inv s' := by
  unfold St.step at hs
  rw [if_neg (by rw [h.ok]; simp)] at hs
  cases e with
  | start => simp only at hs; split at hs <;> cases hs; exact inv_start h
  | stop =>
    simp only at hs
    split at hs
    · rename_i hc; cases hs; exact inv_stop h hc hp
    · cases hs
  | «open» p m f fd =>
    cases fd with
    | none =>
      simp only at hs
      split at hs
      · rename_i hc; cases hs; exact inv_open h hc (fun x hx => by (cases hx)) hp
      · cases hs
    | some fd =>
      simp only at hs
      split at hs
      · rename_i hc; cases hs; exact inv_open h hc.1 (fun x hx => by cases hx; exact hc.2) hp
      · cases hs
  | close p =>
    simp only at hs
    split at hs
    · rename_i hc; cases hs; exact inv_close h hc hp
    · cases hs
  | wake => exact inv_wake h hs
  | joined =>
    simp only at hs
    split at hs
    · rename_i hc; cases hs; exact inv_joined h hc.1 hc.2
    · cases hs
  | arrive fd d => exact inv_arrive h hs
  | error fd => exact absurd hp (by simp [Proper])
  | loop => exact inv_loop h hs

theorem inv_reach {s s' : St} (h : Inv s) (hr : Reach s s') : Inv s' := by
  induction hr with
  | refl => exact h
  | step e _ hp hs ih => exact inv_step ih hp hs

/-! ## Progress -/

/-- The event thread gets from `s` to `s'` by itself. -/
structure Gets (s s' : St) : Prop where
  by_loop : ∃ n, loops n s = some s'
  inv : Inv s'
  caller : s'.caller = s.caller
  write : s'.writeOpen = s.writeOpen

theorem loops_add (m : Nat) : ∀ (n : Nat) (s s' : St), loops n s = some s' → loops (n + m) s = loops m s' := by
  intro n
  induction n with
  | zero => intro s s' h; cases h; rw [Nat.zero_add]
  | succ n ih =>
    intro s s' h
    have e : n + 1 + m = (n + m) + 1 := by omega
    rw [e]
    simp only [loops] at h ⊢
    split at h
    · cases h
    · rename_i s1 h1
      exact ih s1 s' h

theorem Gets.refl {s : St} (h : Inv s) : Gets s s := ⟨⟨0, rfl⟩, h, rfl, rfl⟩

theorem Gets.trans {s s' s'' : St} (h : Gets s s') (h' : Gets s' s'') : Gets s s'' := by
  obtain ⟨n, hn⟩ := h.by_loop
  obtain ⟨m, hm⟩ := h'.by_loop
  exact ⟨⟨n + m, by rw [loops_add m n s s' hn]; exact hm⟩, h'.inv, h'.caller.trans h.caller, h'.write.trans h.write⟩

theorem addListener_keeps (s : St) (p : Nat) : (s.addListener p).caller = s.caller ∧ (s.addListener p).writeOpen = s.writeOpen ∧ (s.addListener p).pipe = s.pipe := by
  unfold St.addListener
  split
  · exact ⟨rfl, rfl, rfl⟩
  · split <;> exact ⟨rfl, rfl, rfl⟩

theorem removeListener_keeps (s : St) (p : Nat) : (s.removeListener p).caller = s.caller ∧ (s.removeListener p).writeOpen = s.writeOpen ∧ (s.removeListener p).pipe = s.pipe := by
  unfold St.removeListener
  split
  · exact ⟨rfl, rfl, rfl⟩
  · split
    · exact ⟨rfl, rfl, rfl⟩
    · split <;> exact ⟨rfl, rfl, rfl⟩

theorem control_keeps (s : St) (r : Req) : (s.control r).caller = s.caller ∧ (s.control r).writeOpen = s.writeOpen ∧ (s.control r).pipe = s.pipe := by
  cases r
  · exact addListener_keeps s _
  · exact removeListener_keeps s _

/-- One step. -/
theorem gets_one {s s' : St} (h : Inv s) (hs : s.loop = some s') (hc : s'.caller = s.caller) (hw : s'.writeOpen = s.writeOpen) : Gets s s' := by
  refine ⟨⟨1, ?_⟩, inv_loop h hs, hc, hw⟩
  have : s.step .loop = some s' := by
    unfold St.step
    rw [if_neg (by rw [h.ok]; simp)]
    exact hs
  simp only [loops, this]

/-- The number of datagrams waiting at a socket. -/
def waiting (s : St) (fd : Nat) : Nat := match s.socks fd with
  | some k => k.queue.length
  | none => 0

/-- The number of datagrams waiting for these entries. -/
def total (s : St) (es : List Entry) : Nat := (es.map (fun e => waiting s e.fd)).sum

theorem total_fds (s : St) {es fs : List Entry} (h : es.map Entry.fd = fs.map Entry.fd) : total s es = total s fs := by
  unfold total
  have : ∀ gs : List Entry, gs.map (fun e => waiting s e.fd) = (gs.map Entry.fd).map (waiting s) := fun gs => by rw [List.map_map]; rfl
  rw [this, this, h]

theorem total_receive {s s' : St} {fd : Nat} {k : Sock} {d : Dgram} {q : List Dgram} (hk : s.socks fd = some k) (hq : k.queue = d :: q) (e1 : s'.socks = upd s.socks fd (some { k with queue := q })) :
    ∀ es : List Entry, (es.map Entry.fd).Nodup → fd ∈ es.map Entry.fd → total s es = total s' es + 1 := by
  have hw : waiting s fd = waiting s' fd + 1 := by
    unfold waiting
    rw [e1, upd_self, hk]
    simp [hq]
  have ho : ∀ x, x ≠ fd → waiting s x = waiting s' x := by
    intro x hx
    unfold waiting
    rw [e1, upd_ne _ _ hx]
  intro es
  induction es with
  | nil => intro _ h; cases h
  | cons e es ih =>
    intro hnd hm
    rw [List.map_cons, List.nodup_cons] at hnd
    have hc : ∀ t : St, total t (e :: es) = waiting t e.fd + total t es := fun t => by simp [total]
    rw [hc, hc]
    by_cases he : e.fd = fd
    · have : total s es = total s' es := by
        unfold total
        congr 1
        apply List.map_congr_left
        intro x hx
        exact ho _ (fun hxf => hnd.1 (List.mem_map.2 ⟨x, hx, hxf.trans he.symm⟩))
      rw [this, he, hw]
      omega
    · rw [List.map_cons, List.mem_cons] at hm
      rcases hm with hm | hm
      · exact absurd hm.symm he
      · have := ih hnd.2 hm
        rw [ho _ he]
        omega

/-- The loop over the descriptors comes to its end, and one datagram is read at each that was ready. -/
theorem scan_done (todo : List Entry) : ∀ (s : St) (n : Nat), Inv s → s.pc = .scan todo n →
    ∃ s', Gets s s' ∧ s'.pc = .poll ∧ s'.pipe = s.pipe ∧ s'.sem = s.sem ∧ total s' s'.entries + count todo = total s s.entries := by
  induction todo with
  | nil =>
    intro s n h hpc
    exact ⟨{ s with pc := .poll }, gets_one h (by unfold St.loop; rw [hpc]) rfl rfl, rfl, rfl, rfl, rfl⟩
  | cons e todo ih =>
    intro s n h hpc
    have hscan := h.scan
    unfold Scan at hscan
    rw [hpc] at hscan
    obtain ⟨hsuf, hg, hn⟩ := hscan
    cases n with
    | zero => exact ⟨{ s with pc := .poll }, gets_one h (by unfold St.loop; rw [hpc]) rfl rfl, rfl, rfl, rfl, by rw [Nat.le_zero.1 hn]; rfl⟩
    | succ n =>
      by_cases hany : e.any = false
      · have hl : s.loop = some { s with pc := .scan todo (n + 1) } := by
          unfold St.loop
          rw [hpc]
          simp only [St.one, hany, if_true]
        have g := gets_one h hl rfl rfl
        obtain ⟨s', g', h1, h2, h3, h4⟩ := ih _ (n + 1) g.inv rfl
        refine ⟨s', g.trans g', h1, h2, h3, ?_⟩
        have : count (e :: todo) = count todo := by simp [count, List.countP_cons, hany]
        rw [this]; exact h4
      · obtain ⟨a, l, k, hda, hl, hlf, hk, hks, hke⟩ := h.data.ent (hsuf.mem (by simp : e ∈ e :: todo))
        obtain ⟨herr, hr⟩ := hg e (by simp)
        have hready : e.ready = true := by
          simp only [Entry.any, herr, Bool.or_false, Bool.not_eq_false] at hany
          exact hany
        obtain ⟨k', hk', hne⟩ := hr hready
        rw [hk] at hk'
        cases hk'
        obtain ⟨d, q, hq⟩ : ∃ d q, k.queue = d :: q := by
          cases hqq : k.queue with
          | nil => exact absurd hqq hne
          | cons d q => exact ⟨d, q, rfl⟩
        have hh : s.handleReady e.fd a = some (s.receive e.fd a l k d q) := by
          unfold St.handleReady
          simp only [hl, hk, hq]
        have hloop : s.loop = some { s.receive e.fd a l k d q with pc := .scan todo n } := by
          unfold St.loop
          rw [hpc]
          simp only [St.one, if_neg hany, hda, herr, Bool.false_eq_true, if_false, hh, Nat.add_sub_cancel]
        have g := gets_one h hloop rfl rfl
        obtain ⟨s', g', h1, h2, h3, h4⟩ := ih _ n g.inv rfl
        refine ⟨s', g.trans g', h1, h2, h3, ?_⟩
        have hc : count (e :: todo) = count todo + 1 := by simp [count, List.countP_cons, Entry.any, hready]
        have ht := total_receive (s' := { s.receive e.fd a l k d q with pc := .scan todo n }) hk hq rfl s.entries h.data.nodup (List.mem_map.2 ⟨e, hsuf.mem (by simp), rfl⟩)
        have h4' : total s' s'.entries + count todo = total { s.receive e.fd a l k d q with pc := .scan todo n } s.entries := h4
        omega

/-- From the control pipe to the next `poll`, unless the thread is to stop. -/
theorem control_done {s : St} (h : Inv s) {ctl : Bool} {n : Nat} (hpc : s.pc = .control ctl n) (hctl : ctl = true → s.pipe ≠ []) :
    ∃ s', Gets s s' ∧ s'.pc = .poll ∧ (ctl = true → s'.pipe = []) ∧ (ctl = false → s'.pipe = s.pipe ∧ total s' s'.entries + count s.entries = total s s.entries) := by
  cases ctl with
  | false =>
    have hl : s.loop = some { s with pc := .scan s.entries n } := by
      unfold St.loop; rw [hpc]
    have g := gets_one h hl rfl rfl
    obtain ⟨s', g', h1, h2, h3, h4⟩ := scan_done s.entries _ n g.inv rfl
    exact ⟨s', g.trans g', h1, (fun e => by (cases e)), fun _ => ⟨h2, h4⟩⟩
  | true =>
    obtain ⟨r, rest, hpipe⟩ : ∃ r rest, s.pipe = r :: rest := by
      cases hp : s.pipe with
      | nil => exact absurd hp (hctl rfl)
      | cons r rest => exact ⟨r, rest, rfl⟩
    have hrest : rest = [] := by
      cases h.phase with
      | off a1 a2 a3 a4 => rw [hpipe] at a4; cases a4
      | idle a1 a2 a3 a4 a5 a6 a7 => rw [hpipe] at a7; cases a7
      | stopping a1 a2 a3 a4 a5 => rw [hpipe] at a5; cases a5
      | stopped a1 a2 a3 a4 a5 a6 => rw [hpipe] at a6; cases a6
      | opening p a1 a2 a3 a4 a5 a6 a7 a8 => rcases a8 with ⟨b, -⟩ | ⟨b, -⟩ <;> (rw [hpipe] at b; cases b); rfl
      | closing p a1 a2 a3 a4 a5 a6 a7 a8 => rcases a8 with ⟨b, -⟩ | ⟨b, -⟩ <;> (rw [hpipe] at b; cases b); rfl
    obtain ⟨k1, k2, k3⟩ := control_keeps ({ s with pipe := rest } : St) r
    have hl : s.loop = some { ({ s with pipe := rest } : St).control r with pc := .scan ((({ s with pipe := rest } : St).control r).entries) (n - 1) } := by
      unfold St.loop
      rw [hpc]
      simp only [hpipe]
    have g := gets_one h hl k1 k2
    obtain ⟨s', g', h1, h2, -, -⟩ := scan_done _ _ (n - 1) g.inv rfl
    exact ⟨s', g.trans g', h1, (fun _ => h2.trans (k3.trans hrest)), fun e => by (cases e)⟩

theorem open_ctl {s : St} (hw : s.writeOpen = true) : s.ctl = true ↔ s.pipe ≠ [] := by
  simp [St.ctl, hw]

/-- As long as nobody wants to stop it, the thread comes to `poll`. -/
theorem to_poll {s : St} (h : Inv s) (hl : Live s) (hw : s.writeOpen = true) : ∃ s', Gets s s' ∧ s'.pc = .poll := by
  cases hpc : s.pc with
  | off => exact absurd hpc hl.1
  | gone => exact absurd hpc hl.2
  | poll => exact ⟨s, Gets.refl h, hpc⟩
  | control ctl n =>
    have hscan := h.scan
    unfold Scan at hscan
    rw [hpc] at hscan
    obtain ⟨s', g, h1, -⟩ := control_done h hpc (fun hc => by
      rcases hscan.2.2 hc with hh | hh
      · exact hh
      · rw [hw] at hh; cases hh)
    exact ⟨s', g, h1⟩
  | scan todo n =>
    obtain ⟨s', g, h1, -⟩ := scan_done todo s n h hpc
    exact ⟨s', g, h1⟩

/-- One round of the loop. -/
theorem round {s : St} (h : Inv s) (hpc : s.pc = .poll) (hw : s.writeOpen = true) (hr : s.nReady ≠ 0) :
    ∃ s', Gets s s' ∧ s'.pc = .poll ∧ s'.pipe = [] ∧ (s.pipe = [] → total s' s'.entries < total s s.entries) := by
  have hl : s.loop = some { s with entries := s.entries.map s.look, pc := .control s.ctl s.nReady } := by
    unfold St.loop
    rw [hpc]
    simp only [if_neg hr]
  have g := gets_one h hl rfl rfl
  obtain ⟨s', g', h1, h2, h3⟩ := control_done g.inv (s := { s with entries := s.entries.map s.look, pc := .control s.ctl s.nReady }) rfl (fun hc => (open_ctl hw).1 hc)
  refine ⟨s', g.trans g', h1, ?_, ?_⟩
  · cases hc : s.ctl with
    | true => exact h2 hc
    | false =>
      rw [(h3 hc).1]
      show s.pipe = []
      exact Classical.byContradiction (fun hne => by rw [(open_ctl hw).2 hne] at hc; cases hc)
  · intro hp
    have hc : s.ctl = false := by
      cases hc : s.ctl with
      | false => rfl
      | true => exact absurd hp ((open_ctl hw).1 hc)
    obtain ⟨-, h4⟩ := h3 hc
    have h4' : total s' s'.entries + count (s.entries.map s.look) = total s (s.entries.map s.look) := h4
    rw [total_fds s (look_map s s.entries)] at h4'
    unfold St.nReady at hr
    rw [hc] at hr
    simp at hr
    omega

/-- Nothing is left to do. -/
theorem idle_none {s : St} (h : Inv s) (hw : s.writeOpen = true) (hr : s.nReady = 0) : s.pipe = [] ∧ ∀ e ∈ s.entries, waiting s e.fd = 0 := by
  unfold St.nReady at hr
  have hc : s.ctl = false := by
    cases hc : s.ctl with
    | false => rfl
    | true => rw [hc] at hr; simp at hr
  refine ⟨Classical.byContradiction (fun hne => by rw [(open_ctl hw).2 hne] at hc; cases hc), fun e he => ?_⟩
  have hz : count (s.entries.map s.look) = 0 := by omega
  unfold count at hz
  rw [List.countP_eq_zero] at hz
  have := hz (s.look e) (List.mem_map.2 ⟨e, he, rfl⟩)
  obtain ⟨a, l, k, -, -, -, hk, -, -⟩ := h.data.ent he
  unfold waiting
  unfold St.look at this
  rw [hk] at this ⊢
  simp only [Entry.any, Bool.or_eq_true, Bool.not_eq_true', List.isEmpty_eq_false_iff, not_or] at this
  simp [Classical.byContradiction this.1]

/-- The thread comes to the point where nothing is left to do. -/
theorem drained {s : St} (h : Inv s) (hl : Live s) (hw : s.writeOpen = true) : ∃ s', Gets s s' ∧ s'.pc = .poll ∧ s'.nReady = 0 := by
  obtain ⟨s1, g1, hp1⟩ := to_poll h hl hw
  have hw1 : s1.writeOpen = true := g1.write.trans hw
  have key : ∀ (w : Nat) (t : St), Inv t → t.pc = .poll → t.writeOpen = true → t.pipe = [] → total t t.entries = w → ∃ s', Gets t s' ∧ s'.pc = .poll ∧ s'.nReady = 0 := by
    intro w
    induction w using Nat.strongRecOn with
    | ind w ih =>
      intro t ht hp htw hpipe htot
      by_cases hr : t.nReady = 0
      · exact ⟨t, Gets.refl ht, hp, hr⟩
      · obtain ⟨t', g, h1, h2, h3⟩ := round ht hp htw hr
        obtain ⟨t'', g', h4, h5⟩ := ih (total t' t'.entries) (by rw [← htot]; exact h3 hpipe) t' g.inv h1 (g.write.trans htw) h2 rfl
        exact ⟨t'', g.trans g', h4, h5⟩
  by_cases hr : s1.nReady = 0
  · exact ⟨s1, g1, hp1, hr⟩
  · obtain ⟨s2, g2, h1, h2, -⟩ := round g1.inv hp1 hw1 hr
    obtain ⟨s3, g3, h4, h5⟩ := key _ s2 g2.inv h1 (g2.write.trans hw1) h2 rfl
    exact ⟨s3, (g1.trans g2).trans g3, h4, h5⟩

/-- If it is to stop, it does. -/
theorem stops {s : St} (h : Inv s) (hc : s.caller = .stopping) : ∃ s', Gets s s' ∧ s'.pc = .gone := by
  have hph : ∀ t : St, Inv t → t.caller = .stopping → t.pipe = [] ∧ t.writeOpen = false := by
    intro t ht htc
    cases ht.phase with
    | off a1 a2 a3 => rw [htc] at a3; cases a3
    | idle a1 a2 a3 a4 a5 a6 => rw [htc] at a6; cases a6
    | opening p a1 a2 a3 a4 a5 a6 => rw [htc] at a6; cases a6
    | closing p a1 a2 a3 a4 a5 a6 => rw [htc] at a6; cases a6
    | stopped a1 a2 a3 a4 a5 => rw [htc] at a5; cases a5
    | stopping a1 a2 a3 a4 a5 => exact ⟨a5, a3⟩
  have hexit : ∀ (t : St) (n : Nat), Inv t → t.caller = .stopping → t.pc = .control true n → ∃ s', Gets t s' ∧ s'.pc = .gone := by
    intro t n ht htc hpc
    refine ⟨t.exit, gets_one ht ?_ rfl rfl, rfl⟩
    unfold St.loop
    rw [hpc]
    simp only [(hph t ht htc).1]
  have hpoll : ∀ (t : St), Inv t → t.caller = .stopping → t.pc = .poll → ∃ s', Gets t s' ∧ s'.pc = .gone := by
    intro t ht htc hpc
    have hct : t.ctl = true := by simp [St.ctl, (hph t ht htc).2]
    have hl : t.loop = some { t with entries := t.entries.map t.look, pc := .control t.ctl t.nReady } := by
      unfold St.loop
      rw [hpc]
      have : t.nReady ≠ 0 := by unfold St.nReady; rw [hct]; simp
      simp only [if_neg this]
    have g := gets_one ht hl rfl rfl
    obtain ⟨s', g', h'⟩ := hexit _ t.nReady g.inv htc (by simp only [hct])
    exact ⟨s', g.trans g', h'⟩
  cases hpc : s.pc with
  | off =>
    cases h.phase with
    | off a1 a2 a3 => rw [hc] at a3; cases a3
    | idle a1 a2 a3 a4 a5 a6 => rw [hc] at a6; cases a6
    | opening p a1 a2 a3 a4 a5 a6 => rw [hc] at a6; cases a6
    | closing p a1 a2 a3 a4 a5 a6 => rw [hc] at a6; cases a6
    | stopped a1 a2 a3 a4 a5 => rw [hc] at a5; cases a5
    | stopping a1 a2 a3 a4 a5 a6 a7 =>
      rcases a7 with ⟨b, -⟩ | ⟨b, -⟩
      · exact absurd hpc b.1
      · rw [hpc] at b; cases b
  | gone => exact ⟨s, Gets.refl h, hpc⟩
  | poll => exact hpoll s h hc hpc
  | control ctl n =>
    cases ctl with
    | true => exact hexit s n h hc hpc
    | false =>
      obtain ⟨s', g, h1, -⟩ := control_done h hpc (fun e => by (cases e))
      obtain ⟨s'', g', h'⟩ := hpoll s' g.inv (g.caller.trans hc) h1
      exact ⟨s'', g.trans g', h'⟩
  | scan todo n =>
    obtain ⟨s', g, h1, -⟩ := scan_done todo s n h hpc
    obtain ⟨s'', g', h'⟩ := hpoll s' g.inv (g.caller.trans hc) h1
    exact ⟨s'', g.trans g', h'⟩

/-! ## C113 -/

/-- **C113 (partial), delivery.**  In every run of proper use, for every call of `openListener` that made a socket, say the `i`-th: of the datagrams that came to it the first ones have been passed on, in order, each
once, cut to the size asked for, to the function given, with the port; the others still wait, as long as the socket is open.  Nothing else was ever passed to a listener function. -/
theorem c113_delivery_partial {s : St} (hr : Reach {} s) :
    (∀ c ∈ s.calls, c.sid < s.sessions.length) ∧
    ∀ i se, s.sessions[i]? = some se → ∃ taken rest, arrivedAt s i = taken ++ rest ∧ callsOf s i = taken.filterMap (deliver se) ∧
      ∀ fd k, s.socks fd = some k → k.sid = i → k.queue = rest := by
  have h := inv_reach inv_init hr
  exact ⟨by rw [← h.data.len]; exact h.hist.call, h.hist.each⟩

theorem at_rest {s : St} (h : Inv s) (hl : Live s) (hw : s.writeOpen = true) (hr : s.nReady = 0) (fd : Nat) (k : Sock) (hk : s.socks fd = some k) (hc : s.caller ≠ .closing k.port) : k.queue = [] := by
  obtain ⟨hpipe, hz⟩ := idle_none h hw hr
  obtain ⟨l, hlk, hlf⟩ := h.data.sockHeap fd k hk
  obtain ⟨k', hk', h1, h2, -⟩ := h.data.heapSock _ l hlk
  rw [hlf, hk] at hk'
  cases hk'
  have hdesc : s.descs fd = some k.sid := by
    rw [← hlf]
    cases h.phase with
    | off a1 a2 => exact absurd a2 hl.1
    | idle a1 a2 a3 a4 a5 a6 a7 a8 a9 => rw [a9 _ l hlk]; simp
    | opening p a1 a2 a3 a4 a5 a6 a7 a8 =>
      rcases a8 with ⟨b, -⟩ | ⟨-, -, b⟩
      · rw [hpipe] at b; cases b
      · rw [b _ l hlk]; simp
    | closing p a1 a2 a3 a4 a5 a6 a7 a8 =>
      rcases a8 with ⟨b, -⟩ | ⟨-, -, b⟩
      · rw [hpipe] at b; cases b
      · exact b.other hlk (fun e => hc (by rw [a6, h2, e]))
    | stopping a1 a2 a3 => rw [hw] at a3; cases a3
    | stopped a1 a2 a3 => rw [hw] at a3; cases a3
  obtain ⟨e, he, hef⟩ := h.data.descEnt _ _ hdesc
  have := hz e he
  unfold waiting at this
  rw [hef, hk] at this
  exact List.length_eq_zero_iff.1 this

/-- **C113, nothing stays.**  In every run of proper use, as long as `stop` has not been called, the event thread by itself passes on everything that is there: after some steps it waits, and no socket has a
datagram left but the one that is being closed. -/
theorem c113_all_read {s : St} (hr : Reach {} s) (hl : s.pc ≠ .off ∧ s.pc ≠ .gone) (hw : s.writeOpen = true) :
    ∃ n s', loops n s = some s' ∧ s'.loop = none ∧ s'.pc = .poll ∧ ∀ fd k, s'.socks fd = some k → s.caller ≠ .closing k.port → k.queue = [] := by
  obtain ⟨s', g, hp, hz⟩ := drained (inv_reach inv_init hr) hl hw
  obtain ⟨n, hn⟩ := g.by_loop
  refine ⟨n, s', hn, ?_, hp, fun fd k hk hc => ?_⟩
  · unfold St.loop; rw [hp]; simp only [hz, if_true]
  · exact at_rest g.inv (by unfold Live; rw [hp]; simp) (g.write.trans hw) hz fd k hk (by rw [g.caller]; exact hc)

/-- **C113, one socket for a port.**  In every run of proper use the open sockets are those of the ports opened and not closed, one each: no descriptor leaks. -/
theorem c113_sockets {s : St} (hr : Reach {} s) (fd : Nat) (k : Sock) (hk : s.socks fd = some k) :
    s.ports k.port = some k.sid ∧ s.sessions[k.sid]?.map Session.port = some k.port ∧ ∀ fd' k', s.socks fd' = some k' → k'.port = k.port → fd' = fd := by
  have h := inv_reach inv_init hr
  obtain ⟨l, hl, hlf⟩ := h.data.sockHeap fd k hk
  obtain ⟨k1, hk1, h1, h2, -⟩ := h.data.heapSock _ l hl
  rw [hlf, hk] at hk1
  cases hk1
  refine ⟨by rw [h2]; exact h.data.heapPort _ l hl, by rw [h.data.heapSess _ l hl, h2]; rfl, fun fd' k' hk' hp => ?_⟩
  obtain ⟨m, hm, hmf⟩ := h.data.sockHeap fd' k' hk'
  obtain ⟨k2, hk2, g1, g2, -⟩ := h.data.heapSock _ m hm
  rw [hmf, hk'] at hk2
  cases hk2
  have : k'.sid = k.sid := (h.data.inj hm hl).2 (by rw [← g2, ← h2, hp])
  rw [this, hl] at hm
  cases hm
  exact hmf.symm.trans hlf

theorem control_data (s : St) (r : Req) : (s.control r).socks = s.socks ∧ (s.control r).calls = s.calls ∧ (s.control r).sessions = s.sessions := by
  cases r with
  | add p =>
    simp only [St.control]
    unfold St.addListener
    split
    · exact ⟨rfl, rfl, rfl⟩
    · split <;> exact ⟨rfl, rfl, rfl⟩
  | remove p =>
    simp only [St.control]
    unfold St.removeListener
    split
    · exact ⟨rfl, rfl, rfl⟩
    · split
      · exact ⟨rfl, rfl, rfl⟩
      · split <;> exact ⟨rfl, rfl, rfl⟩

/-- The `i`-th listener opened is closed. -/
def Shut (s : St) (i : Nat) : Prop := i < s.sessions.length ∧ ∀ fd k, s.socks fd = some k → k.sid ≠ i

theorem shut_same {s s' : St} {i : Nat} (h : Shut s i) (e1 : ∀ fd k, s'.socks fd = some k → s.socks fd = some k) (e2 : s'.sessions = s.sessions) (e3 : s'.calls = s.calls) :
    Shut s' i ∧ callsOf s' i = callsOf s i :=
  ⟨⟨by rw [e2]; exact h.1, fun fd k hk => h.2 fd k (e1 fd k hk)⟩, by unfold callsOf; rw [e3]⟩

theorem shut_loop {s s' : St} {i : Nat} (hi : Inv s) (h : Shut s i) (hs : s.loop = some s') : Shut s' i ∧ callsOf s' i = callsOf s i := by
  unfold St.loop at hs
  split at hs
  · cases hs
  · cases hs
  · split at hs
    · cases hs
    · cases hs; exact shut_same h (fun _ _ x => x) rfl rfl
  · cases hs; exact shut_same h (fun _ _ x => x) rfl rfl
  · split at hs
    · cases hs; exact shut_same h (fun _ _ x => x) rfl rfl
    · rename_i r rest hpipe
      cases hs
      obtain ⟨c1, c2, c3⟩ := control_data ({ s with pipe := rest } : St) r
      exact shut_same h (fun fd k hk => by have hk' : (({ s with pipe := rest } : St).control r).socks fd = some k := hk; rw [c1] at hk'; exact hk') c3 c2
  · cases hs; exact shut_same h (fun _ _ x => x) rfl rfl
  · cases hs; exact shut_same h (fun _ _ x => x) rfl rfl
  · rename_i e todo n hpc
    unfold St.one at hs
    split at hs
    · cases hs; exact shut_same h (fun _ _ x => x) rfl rfl
    · split at hs
      · cases hs; exact shut_same h (fun _ _ x => x) rfl rfl
      · rename_i a hda
        split at hs
        · cases hs; exact shut_same h (fun _ _ x => x) rfl rfl
        · unfold St.handleReady at hs
          obtain ⟨l, hl, hlf⟩ := hi.data.descHeap _ _ hda
          obtain ⟨k, hk, h1, -⟩ := hi.data.heapSock a l hl
          rw [hlf] at hk
          simp only [hl, hk] at hs
          cases hq : k.queue with
          | nil => rw [hq] at hs; cases hs
          | cons d q =>
            rw [hq] at hs
            cases hs
            have hai : a ≠ i := fun e => h.2 _ k hk (h1.trans e)
            refine ⟨⟨h.1, fun fd k' hk' => ?_⟩, ?_⟩
            · simp only [St.receive] at hk'
              by_cases hf : fd = e.fd
              · subst hf; rw [upd_self] at hk'; cases hk'; exact h.2 _ k hk
              · rw [upd_ne _ _ hf] at hk'; exact h.2 fd k' hk'
            · unfold callsOf St.receive
              by_cases he : d.bytes.take l.maxSize = []
              · simp [he]
              · simp [he, hai]

theorem shut_step {s s' : St} {i : Nat} {e : Ev} (hi : Inv s) (h : Shut s i) (hp : Proper s e) (hs : s.step e = some s') : Shut s' i ∧ callsOf s' i = callsOf s i := by
  unfold St.step at hs
  rw [if_neg (by rw [hi.ok]; simp)] at hs
  have hopen : ∀ p m f fd, s.ports p = none → Shut (s.openListener p m f fd) i ∧ callsOf (s.openListener p m f fd) i = callsOf s i := by
    intro p m f fd hpp
    unfold St.openListener
    split
    · exact shut_same h (fun _ _ x => x) rfl rfl
    · split
      · exact shut_same h (fun _ _ x => x) rfl rfl
      · split
        · exact shut_same h (fun _ _ x => x) rfl rfl
        · split
          · exact shut_same h (fun _ _ x => x) rfl rfl
          · rw [hpp]
            refine ⟨⟨?_, fun fd' k hk => ?_⟩, rfl⟩
            · have := h.1
              simp only [List.length_append, List.length_cons, List.length_nil]
              omega
            · rename_i fd0 _
              simp only at hk
              by_cases hf : fd' = fd0
              · subst hf
                rw [upd_self] at hk; cases hk
                have := h.1
                rw [← hi.data.len] at this
                simp only
                omega
              · rw [upd_ne _ _ hf] at hk; exact h.2 fd' k hk
  cases e with
  | start =>
    simp only at hs
    split at hs
    · cases hs; unfold St.start; split <;> exact shut_same h (fun _ _ x => x) rfl rfl
    · cases hs
  | stop =>
    simp only at hs
    split at hs
    · cases hs; unfold St.stop; split
      · exact shut_same h (fun _ _ x => x) rfl rfl
      · split <;> exact shut_same h (fun _ _ x => x) rfl rfl
    · cases hs
  | «open» p m f fd =>
    cases fd with
    | none =>
      simp only at hs
      split at hs
      · cases hs; exact hopen p m f none hp
      · cases hs
    | some fd =>
      simp only at hs
      split at hs
      · cases hs; exact hopen p m f (some fd) hp
      · cases hs
  | close p =>
    simp only at hs
    split at hs
    · cases hs
      unfold St.closeListener
      split
      · exact shut_same h (fun _ _ x => x) rfl rfl
      · split
        · unfold St.finishClose
          split
          · exact shut_same h (fun _ _ x => x) rfl rfl
          · split
            · exact shut_same h (fun _ _ x => x) rfl rfl
            · refine shut_same h (fun fd k hk => ?_) rfl rfl
              simp only [upd] at hk
              split at hk
              · cases hk
              · exact hk
        · split <;> exact shut_same h (fun _ _ x => x) rfl rfl
    · cases hs
  | wake =>
    simp only at hs
    unfold St.wake at hs
    split at hs
    · cases hs
    · split at hs
      · cases hs; exact shut_same h (fun _ _ x => x) rfl rfl
      · cases hs
        unfold St.finishClose
        split
        · exact shut_same h (fun _ _ x => x) rfl rfl
        · split
          · exact shut_same h (fun _ _ x => x) rfl rfl
          · refine shut_same h (fun fd k hk => ?_) rfl rfl
            simp only [upd] at hk
            split at hk
            · cases hk
            · exact hk
      · cases hs
  | joined =>
    simp only at hs
    split at hs
    · cases hs
      refine shut_same h (fun fd k hk => ?_) rfl rfl
      rw [(finish_stop hi).1 fd] at hk; cases hk
    · cases hs
  | arrive fd d =>
    simp only at hs
    unfold St.arrive at hs
    split at hs
    · cases hs
    · rename_i k hk
      cases hs
      refine ⟨⟨h.1, fun fd' k' hk' => ?_⟩, rfl⟩
      simp only at hk'
      by_cases hf : fd' = fd
      · subst hf; rw [upd_self] at hk'; cases hk'; exact h.2 _ k hk
      · rw [upd_ne _ _ hf] at hk'; exact h.2 fd' k' hk'
  | error fd => exact absurd hp (by simp [Proper])
  | loop => exact shut_loop hi h hs

/-- **C113, closed is closed.**  In every run of proper use, once the socket of a listener has been closed its function is never called again for it. -/
theorem c113_closed {s s' : St} (hr : Reach {} s) (hr' : Reach s s') (i : Nat) (hi : i < s.sessions.length) (hc : ∀ fd k, s.socks fd = some k → k.sid ≠ i) : callsOf s' i = callsOf s i := by
  have key : Shut s' i ∧ callsOf s' i = callsOf s i ∧ Inv s' := by
    induction hr' with
    | refl => exact ⟨⟨hi, hc⟩, rfl, inv_reach inv_init hr⟩
    | step e _ hp hs ih =>
      obtain ⟨a, b, c⟩ := ih
      obtain ⟨a', b'⟩ := shut_step c a hp hs
      exact ⟨a', b'.trans b, inv_step c hp hs⟩
  exact key.2.1

/-! ## C114 -/

theorem reach_trans {s s' s'' : St} (h : Reach s s') (h' : Reach s' s'') : Reach s s'' := by
  induction h' with
  | refl => exact h
  | step e _ hp hs ih => exact .step e ih hp hs

/-- **C114 (partial), every call comes back.**  In every run of proper use, whatever call is going on: some steps of the event thread alone, and it returns; `openListener` with success, and there is a socket
for the port; after `closeListener` there is none; after `stop` there is no socket at all. -/
theorem c114_returns_partial {s : St} (hr : Reach {} s) :
    (∀ p, s.caller = .opening p → ∃ n s1 s2, loops n s = some s1 ∧ s1.step .wake = some s2 ∧ s2.caller = .idle ∧ s2.rets.getLast? = some (.opened p true) ∧ ∃ fd k, s2.socks fd = some k ∧ k.port = p) ∧
    (∀ p, s.caller = .closing p → ∃ n s1 s2, loops n s = some s1 ∧ s1.step .wake = some s2 ∧ s2.caller = .idle ∧ s2.rets.getLast? = some (.closed p) ∧ ∀ fd k, s2.socks fd = some k → k.port ≠ p) ∧
    (s.caller = .stopping → ∃ n s1 s2, loops n s = some s1 ∧ s1.step .joined = some s2 ∧ s2.caller = .idle ∧ s2.rets.getLast? = some .stopped ∧ ∀ fd, s2.socks fd = none) := by
  have h := inv_reach inv_init hr
  refine ⟨fun p hc => ?_, fun p hc => ?_, fun hc => ?_⟩
  · have hlw : Live s ∧ s.writeOpen = true := by
      cases h.phase with
      | off a1 a2 a3 => rw [hc] at a3; cases a3
      | idle a1 a2 a3 a4 a5 a6 => rw [hc] at a6; cases a6
      | closing p a1 a2 a3 a4 a5 a6 => rw [hc] at a6; cases a6
      | stopping a1 a2 a3 a4 => rw [hc] at a4; cases a4
      | stopped a1 a2 a3 a4 a5 => rw [hc] at a5; cases a5
      | opening q a1 a2 a3 a4 a5 => exact ⟨a5, a3⟩
    obtain ⟨s1, g, hp, hz⟩ := drained h hlw.1 hlw.2
    obtain ⟨n, hn⟩ := g.by_loop
    have hpipe := (idle_none g.inv (g.write.trans hlw.2) hz).1
    have hc1 := g.caller.trans hc
    have hsem : s1.sem = 1 ∧ s1.ports p ≠ none := by
      cases g.inv.phase with
      | off a1 a2 a3 => rw [hc1] at a3; cases a3
      | idle a1 a2 a3 a4 a5 a6 => rw [hc1] at a6; cases a6
      | closing p a1 a2 a3 a4 a5 a6 => rw [hc1] at a6; cases a6
      | stopping a1 a2 a3 a4 => rw [hc1] at a4; cases a4
      | stopped a1 a2 a3 a4 a5 => rw [hc1] at a5; cases a5
      | opening q a1 a2 a3 a4 a5 a6 a7 a8 =>
        rw [hc1] at a6
        cases a6
        rcases a8 with ⟨b, -⟩ | ⟨-, b, -⟩
        · rw [hpipe] at b; cases b
        · exact ⟨b, a7⟩
    obtain ⟨a, hpa⟩ := Option.ne_none_iff_exists'.1 hsem.2
    obtain ⟨l, hl, hlp⟩ := g.inv.data.portHeap p a hpa
    obtain ⟨k, hk, -, h2, -⟩ := g.inv.data.heapSock a l hl
    refine ⟨n, s1, { s1 with sem := 0, caller := .idle, rets := s1.rets ++ [.opened p true] }, hn, ?_, rfl, by simp, l.fd, k, hk, h2.trans hlp⟩
    unfold St.step
    rw [if_neg (by rw [g.inv.ok]; simp)]
    simp only [St.wake, hsem.1, hc1]
  · have hlw : Live s ∧ s.writeOpen = true := by
      cases h.phase with
      | off a1 a2 a3 => rw [hc] at a3; cases a3
      | idle a1 a2 a3 a4 a5 a6 => rw [hc] at a6; cases a6
      | opening p a1 a2 a3 a4 a5 a6 => rw [hc] at a6; cases a6
      | stopping a1 a2 a3 a4 => rw [hc] at a4; cases a4
      | stopped a1 a2 a3 a4 a5 => rw [hc] at a5; cases a5
      | closing q a1 a2 a3 a4 a5 => exact ⟨a5, a3⟩
    obtain ⟨s1, g, hp, hz⟩ := drained h hlw.1 hlw.2
    obtain ⟨n, hn⟩ := g.by_loop
    have hpipe := (idle_none g.inv (g.write.trans hlw.2) hz).1
    have hc1 := g.caller.trans hc
    have hsem : s1.sem = 1 := by
      cases g.inv.phase with
      | off a1 a2 a3 => rw [hc1] at a3; cases a3
      | idle a1 a2 a3 a4 a5 a6 => rw [hc1] at a6; cases a6
      | opening p a1 a2 a3 a4 a5 a6 => rw [hc1] at a6; cases a6
      | stopping a1 a2 a3 a4 => rw [hc1] at a4; cases a4
      | stopped a1 a2 a3 a4 a5 => rw [hc1] at a5; cases a5
      | closing q a1 a2 a3 a4 a5 a6 a7 a8 =>
        rcases a8 with ⟨b, -⟩ | ⟨-, b, -⟩
        · rw [hpipe] at b; cases b
        · exact b
    obtain ⟨a, l, hpa, hl, hlp, hdn, hfin⟩ := finish_close g.inv hc1 (by rw [hsem]; simp)
    have hw : s1.step .wake = some { s1 with sem := 0, socks := upd s1.socks l.fd none, heap := upd s1.heap a none, ports := upd s1.ports p none, caller := .idle, rets := s1.rets ++ [.closed p] } := by
      unfold St.step
      rw [if_neg (by rw [g.inv.ok]; simp)]
      have hw0 : s1.wake = some (({ s1 with sem := 0 } : St).finishClose p) := by
        unfold St.wake
        split
        · rename_i h0; rw [hsem] at h0; cases h0
        · rename_i m h0
          rw [hsem] at h0
          have hm0 : m = 0 := by omega
          split
          · rename_i q hq; rw [hc1] at hq; cases hq
          · rename_i q hq
            have hpq : q = p := by rw [hc1] at hq; cases hq; rfl
            rw [hpq, hm0]
          · rename_i _ hq; exact absurd hc1 (hq p)
      have hfin' : ({ s1 with sem := 0 } : St).finishClose p = _ := hfin
      simp only
      rw [hw0, hfin']
    refine ⟨n, s1, _, hn, hw, rfl, by simp, fun fd k hk hkp => ?_⟩
    have hi2 := inv_step g.inv (e := .wake) trivial hw
    obtain ⟨m, hm, hmf⟩ := hi2.data.sockHeap fd k hk
    obtain ⟨k', hk', h1, h2, -⟩ := hi2.data.heapSock _ m hm
    rw [hmf, hk] at hk'
    cases hk'
    have := hi2.data.heapPort _ m hm
    rw [← h2, hkp] at this
    simp only [upd_self] at this
    cases this
  · obtain ⟨s1, g, hp⟩ := stops h hc
    obtain ⟨n, hn⟩ := g.by_loop
    refine ⟨n, s1, s1.finishStop, hn, ?_, rfl, by simp [St.finishStop], (finish_stop g.inv).1⟩
    unfold St.step
    rw [if_neg (by rw [g.inv.ok]; simp)]
    simp only [g.caller.trans hc, hp, and_self, if_true]

/-! ## Examples and counterexamples -/

/-- Start, and open port 5 on descriptor 3. -/
def opened : List Ev := [.start, .open 5 4 7 (some 3), .loop, .loop, .loop, .wake]

/-- Two datagrams come; the loop makes two rounds. The first is cut to 4 bytes and has no sender (`addrSizeBuf` is zero at first, `UdpEventLoop.cc:77, 554`). -/
theorem c113_example :
    (St.run {} (opened ++ [.arrive 3 ⟨9, [1, 2, 3, 4, 5]⟩, .arrive 3 ⟨9, [6]⟩, .loop, .loop, .loop, .loop, .loop, .loop, .loop, .loop])).map (fun s => (s.calls, waiting s 3, s.rets, s.loop.isSome)) =
      some ([⟨0, 7, 5, [1, 2, 3, 4], none⟩, ⟨0, 7, 5, [6], some 9⟩], 0, [.started true, .opened 5 true], false) := by decide

/-- The hypotheses of C113 are met: all of this is proper use. -/
theorem c113_example_proper : ∃ s, Reach {} s ∧ s.ports 5 = some 0 ∧ s.caller = .idle := by
  have p0 : Reach {} {} := .refl _
  have p1 := Reach.step .start p0 trivial rfl
  have p2 := Reach.step (.open 5 4 7 (some 3)) p1 rfl rfl
  have p3 := Reach.step .loop p2 trivial rfl
  have p4 := Reach.step .loop p3 trivial rfl
  have p5 := Reach.step .loop p4 trivial rfl
  have p7 := Reach.step .wake p5 trivial rfl
  exact ⟨_, p7, rfl, rfl⟩

/-- Opening a port twice, as every second `ReceiveCommand` for the same message does (`UdpAdapter.cc:328, 807`): success is reported, but the second socket belongs to nobody; a datagram that comes to it
stays there, and the event thread waits. -/
theorem c113_reopen :
    (St.run {} (opened ++ [.open 5 4 7 (some 4), .loop, .loop, .loop, .wake, .arrive 4 ⟨9, [1]⟩])).map (fun s => (s.rets, waiting s 4, s.calls, s.loop.isSome)) =
      some ([.started true, .opened 5 true, .opened 5 true], 1, [], false) := by decide

/-- And one that comes to the first socket is read, but then the thread waits for another one at the same socket (it is in `pollfds` twice): a call of `closeListener` does not come back. -/
theorem c113_reopen_hangs :
    (St.run {} (opened ++ [.open 5 4 7 (some 4), .loop, .loop, .loop, .wake, .arrive 3 ⟨9, [1]⟩, .loop, .loop, .loop, .close 5])).map
      (fun s => (s.calls.length, s.caller, s.loop.isSome, s.wake.isSome)) = some (1, .closing 5, false, false) := by decide

/-- After `stop`, `start` reports success but there is no event thread; `openListener` fails. -/
theorem c114_no_restart :
    (St.run {} [.start, .stop, .loop, .loop, .joined, .start, .open 5 4 7 (some 3)]).map (fun s => (s.rets, s.pc)) = some ([.started true, .stopped, .started true, .opened 5 false], .gone) := by decide

/-- `stop` twice closes the descriptor of the pipe twice. -/
theorem c114_stop_twice : (St.run {} [.start, .stop, .loop, .loop, .joined, .stop]).map (fun s => s.badClose) = some true := by decide

/-- Closing a port that is not open follows a null pointer (`UdpEventLoop.cc:266`). -/
theorem c114_close_unknown : (St.run {} [.start, .close 5, .loop, .loop, .wake]).map (fun s => s.crashed) = some true := by decide

/-- An error on one socket ends the event thread, for all ports; the next call writes to a pipe without reader, which ends the program. -/
theorem c114_error : (St.run {} (opened ++ [.error 3, .loop, .loop, .loop])).map (fun s => (s.pc, s.crashed)) = some (.gone, false) ∧
    (St.run {} (opened ++ [.error 3, .loop, .loop, .loop, .close 5])).map (fun s => s.crashed) = some true ∧
    (St.run {} (opened ++ [.error 3, .loop, .loop, .loop, .open 6 4 7 (some 4)])).map (fun s => s.crashed) = some true := by decide

end Verif.Sockets
