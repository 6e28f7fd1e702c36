import Verif.Netlink

/-!
# C55: network conditions follow the kernel

The kernel has interfaces and default routes.  They change, each change is told in a message, and finit reads the
messages at some later time.  When finit has read all messages, the conditions `net/IFACE/exist`, `net/IFACE/up` and
`net/IFACE/running` shall say what the kernel has, and `net/route/default` shall be on if, and only if, there is a
default route.
-/

namespace Verif

/-! ## The kernel -/

/-- A network interface -/
structure KLink where
  idx : Nat
  name : CStr
  up : Bool
  running : Bool
  deriving DecidableEq, Repr

/-- A default route (`0.0.0.0/0`): the gateway, 0 if there is none, and the interface -/
structure KRoute where
  gw : Nat
  oif : Nat
  deriving DecidableEq, Repr

/-- The interfaces and default routes of the kernel -/
structure Kern where
  links : List KLink := []
  routes : List KRoute := []
  deriving DecidableEq, Repr

/-- What may happen: an interface appears, changes its flags, disappears or gets another name; a default route is
    added or deleted; another route is added or deleted -/
inductive KEvent
  | appear (l : KLink)
  | flags (l : KLink) (up running : Bool)
  | vanish (l : KLink)
  | rename (l : KLink) (name : CStr)
  | addRoute (r : KRoute)
  | delRoute (r : KRoute)
  | other (del : Bool)
  deriving DecidableEq, Repr

/-- The names the kernel accepts for interfaces -/
structure IfName (n : CStr) : Prop where
  some : n ≠ []
  short : n.length ≤ 15
  dot : n ≠ ".".toList
  dots : n ≠ "..".toList
  plain : ∀ c ∈ n, c ≠ '/' ∧ c ≠ ':' ∧ isSpace c = false

/-- When it may happen -/
def KEvent.May (K : Kern) : KEvent → Prop
  | .appear l => 0 < l.idx ∧ IfName l.name ∧ ∀ x ∈ K.links, x.idx ≠ l.idx ∧ x.name ≠ l.name
  | .flags l _ _ => l ∈ K.links
  | .vanish l => l ∈ K.links
  | .rename l n => l ∈ K.links ∧ IfName n ∧ ∀ x ∈ K.links, x.name ≠ n
  | .addRoute r => ∃ l ∈ K.links, l.idx = r.oif ∧ l.up = true
  | .delRoute r => r ∈ K.routes
  | .other _ => True

/-- What the kernel has afterwards.  The routes over an interface go away, without a message, when it goes down. -/
def KEvent.next (K : Kern) : KEvent → Kern
  | .appear l => { K with links := l :: K.links }
  | .flags l up running =>
    { links := K.links.map (fun x => if x.idx = l.idx then { x with up := up, running := running } else x)
      routes := if up then K.routes else K.routes.filter (fun r => decide (r.oif ≠ l.idx)) }
  | .vanish l =>
    { links := K.links.filter (fun x => decide (x.idx ≠ l.idx))
      routes := K.routes.filter (fun r => decide (r.oif ≠ l.idx)) }
  | .rename l n => { K with links := K.links.map (fun x => if x.idx = l.idx then { x with name := n } else x) }
  | .addRoute r => { K with routes := r :: K.routes }
  | .delRoute r => { K with routes := K.routes.erase r }
  | .other _ => K

/-- A message on an interface names it once, among other attributes -/
def OnLink (del : Bool) (n : CStr) (up running : Bool) (m : NlMsg) : Prop :=
  ∃ attrs, m = .link del up running attrs ∧ attrs.filter (· ≠ .other) = [.ifname n]

/-- A message on a default route has its gateway and interface, among other attributes, and no destination -/
def OnDefault (del : Bool) (r : KRoute) (m : NlMsg) : Prop :=
  ∃ attrs, m = .route del 0 attrs ∧ (∀ a, .dst a ∉ attrs) ∧ (∀ a, .gateway a ∈ attrs ↔ a = r.gw ∧ a ≠ 0) ∧
    ∀ i, .oif i ∈ attrs ↔ i = r.oif

/-- A message on another route has a destination and the length of its prefix -/
def OnOther (del : Bool) (m : NlMsg) : Prop := ∃ len attrs, m = .route del len attrs ∧ 0 < len ∧ ∃ a, .dst a ∈ attrs

/-- The message that tells of an event -/
def KEvent.Tells (m : NlMsg) : KEvent → Prop
  | .appear l => OnLink false l.name l.up l.running m
  | .flags l up running => OnLink false l.name up running m
  | .vanish l => OnLink true l.name false false m
  | .rename l n => OnLink false n l.up l.running m
  | .addRoute r => OnDefault false r m
  | .delRoute r => OnDefault true r m
  | .other del => OnOther del m

/-- `if_nametoindex` -/
def Kern.index (K : Kern) (n : CStr) : Nat :=
  match K.links.find? (fun l => decide (l.name = n)) with
  | some l => l.idx
  | none => 0

/-- The answer to a question for all routes -/
structure Kern.RouteDump (K : Kern) (d : List NlMsg) : Prop where
  only : ∀ m ∈ d, OnOther false m ∨ ∃ r ∈ K.routes, OnDefault false r m
  all : ∀ r ∈ K.routes, ∃ m ∈ d, OnDefault false r m

/-- The answer to a question for all interfaces -/
structure Kern.LinkDump (K : Kern) (d : List NlMsg) : Prop where
  only : ∀ m ∈ d, ∃ l ∈ K.links, OnLink false l.name l.up l.running m
  all : ∀ l ∈ K.links, ∃ m ∈ d, OnLink false l.name l.up l.running m

/-- Interfaces have different, proper names and different, positive numbers, and routes go over interfaces that
    are up -/
structure Kern.Wf (K : Kern) : Prop where
  idxs : ∀ a ∈ K.links, ∀ b ∈ K.links, a.idx = b.idx → a = b
  names : ∀ a ∈ K.links, ∀ b ∈ K.links, a.name = b.name → a = b
  good : ∀ a ∈ K.links, 0 < a.idx ∧ IfName a.name
  over : ∀ r ∈ K.routes, ∃ l ∈ K.links, l.idx = r.oif ∧ l.up = true

/-! ## The kernel and finit -/

/-- The kernel, the messages that finit has not read yet, finit, and whether a message was lost -/
structure NetSys where
  kern : Kern
  queue : List NlMsg
  nl : Nl
  lost : Bool := false

/-- The states that can be reached, with events that are allowed, and messages that may be lost, or not -/
inductive NetReach (allow : NetSys → KEvent → Prop) (lossy : Prop) : NetSys → Prop
  | boot {K links routes nl} : K.Wf → K.LinkDump links → K.RouteDump routes → nl.ifdown = false → nl.defidx = 0 →
      NetReach allow lossy ⟨K, [], nlResync K.index links routes nl, false⟩
  | event {s e m} : NetReach allow lossy s → allow s e → e.May s.kern → e.Tells m →
      NetReach allow lossy { s with kern := e.next s.kern, queue := s.queue ++ [m] }
  | miss {s e} : NetReach allow lossy s → lossy → allow s e → e.May s.kern →
      NetReach allow lossy { s with kern := e.next s.kern, lost := true }
  | read {s routes} : NetReach allow lossy s → s.lost = false → s.kern.RouteDump routes →
      NetReach allow lossy { s with queue := [], nl := nlCallback s.kern.index routes s.queue s.nl }
  | resync {s links routes} : NetReach allow lossy s → s.lost = true → s.kern.LinkDump links →
      s.kern.RouteDump routes →
      NetReach allow lossy { s with nl := nlResync s.kern.index links routes s.nl, lost := false }

/-- The conditions of all interfaces, and of names that no interface has -/
def LinksRight (K : Kern) (s : Nl) : Prop :=
  ∀ n, IfName n →
    (s.on ("net/".toList ++ n ++ "/exist".toList) = true ↔ ∃ l ∈ K.links, l.name = n) ∧
    (s.on ("net/".toList ++ n ++ "/up".toList) = true ↔ ∃ l ∈ K.links, l.name = n ∧ l.up = true) ∧
    (s.on ("net/".toList ++ n ++ "/running".toList) = true ↔ ∃ l ∈ K.links, l.name = n ∧ l.running = true)

/-- The condition of the default route -/
def RouteRight (K : Kern) (s : Nl) : Prop := s.on "net/route/default".toList = true ↔ K.routes ≠ []

/-! ## Lemmas: the conditions of interfaces -/

private inductive NetKind
  | exist | up | running
  deriving DecidableEq

private def NetKind.text : NetKind → String
  | .exist => "exist"
  | .up => "up"
  | .running => "running"

private def NetKind.sel (up running : Bool) : NetKind → Bool
  | .exist => true
  | .up => up
  | .running => running

private theorem NetKind.noSlash (k : NetKind) : ∀ c ∈ k.text.toList, c ≠ '/' := by
  cases k <;> decide

private theorem IfName.noSlash {n : CStr} (h : IfName n) : ∀ c ∈ n, c ≠ '/' := fun c hc => (h.plain c hc).1

private theorem append_slash_inj : ∀ {a b x y : CStr}, (∀ c ∈ a, c ≠ '/') → (∀ c ∈ b, c ≠ '/') →
    a ++ '/' :: x = b ++ '/' :: y → a = b ∧ x = y
  | [], [], _, _, _, _, h => by simp at h; exact ⟨rfl, h⟩
  | [], b :: bs, _, _, _, hb, h => by
    simp at h
    exact absurd h.1.symm (hb b (by simp))
  | a :: as, [], _, _, ha, _, h => by
    simp at h
    exact absurd h.1 (ha a (by simp))
  | a :: as, b :: bs, x, y, ha, hb, h => by
    simp only [List.cons_append, List.cons.injEq] at h
    obtain ⟨e, h⟩ := h
    have := append_slash_inj (fun c hc => ha c (List.mem_cons_of_mem _ hc))
      (fun c hc => hb c (List.mem_cons_of_mem _ hc)) h
    exact ⟨by rw [e, this.1], this.2⟩

private theorem NetKind.text_inj {a b : NetKind} (h : a.text.toList = b.text.toList) : a = b := by
  cases a <;> cases b <;> first | rfl | (exfalso; revert h; decide)

private theorem netCond_inj {a b : CStr} {k j : NetKind} (ha : IfName a) (hb : IfName b)
    (h : netCond a k.text = netCond b j.text) : a = b ∧ k = j := by
  simp only [netCond, List.append_assoc] at h
  have := append_slash_inj ha.noSlash hb.noSlash (List.append_cancel_left h)
  exact ⟨this.1, NetKind.text_inj this.2⟩

private theorem netCond_route {a : CStr} (ha : IfName a) (k : NetKind) :
    netCond a k.text ≠ "net/route/default".toList := by
  intro h
  have h2 : "net/".toList ++ (a ++ '/' :: k.text.toList) = "net/".toList ++ ("route".toList ++ '/' :: "default".toList) := by
    rw [← List.append_assoc]; exact h
  have := append_slash_inj ha.noSlash (by decide) (List.append_cancel_left h2)
  cases k <;> exact absurd this.2 (by decide)

private theorem IfName.valid {n : CStr} (h : IfName n) : strlcpy 17 n = n ∧ validIfname n = true := by
  refine ⟨List.take_of_length_le (by have := h.short; omega), ?_⟩
  have hl := h.short
  simp only [validIfname, Bool.and_eq_true, decide_eq_true_eq, List.all_eq_true, Bool.not_eq_true']
  exact ⟨⟨⟨⟨h.some, by omega⟩, h.dot⟩, h.dots⟩, fun c hc => ⟨⟨(h.plain c hc).1, (h.plain c hc).2.1⟩, (h.plain c hc).2.2⟩⟩

private theorem cond_on (s : Nl) (n : CStr) (b : Bool) (c : CStr) : (s.cond n b).on c = if c = n then b else s.on c := rfl

private theorem check_on (index : CStr → Nat) (n : CStr) (s : Nl) : (nlCheckDefault index n s).on = s.on := by
  unfold nlCheckDefault; split <;> rfl

private theorem check_defidx (index : CStr → Nat) (n : CStr) (s : Nl) :
    (nlCheckDefault index n s).defidx = s.defidx := by
  unfold nlCheckDefault; split <;> rfl

private theorem check_ifdown (index : CStr → Nat) (n : CStr) (s : Nl) : (nlCheckDefault index n s).ifdown =
    if (0 < s.defidx ∧ s.defidx = index n) ∨ index n = 0 then true else s.ifdown := by
  unfold nlCheckDefault; split <;> rfl

private theorem ite_check_on (b : Bool) (index : CStr → Nat) (n : CStr) (s : Nl) :
    (if b = true then nlCheckDefault index n s else s).on = s.on := by
  cases b
  · rfl
  · exact check_on ..

private theorem foldl_filter (index : CStr → Nat) (del up running : Bool) : ∀ (attrs : List NlAttr) (s : Nl),
    attrs.foldl (nlLinkAttr index del up running) s =
      (attrs.filter (· ≠ .other)).foldl (nlLinkAttr index del up running) s
  | [], _ => rfl
  | a :: as, s => by
    by_cases h : a = .other
    · subst h
      simp only [List.foldl_cons, nlLinkAttr]
      rw [foldl_filter index del up running as]
      simp
    · rw [List.filter_cons_of_pos (by simpa using h), List.foldl_cons, List.foldl_cons]
      exact foldl_filter index del up running as _

private theorem onLink_eq {index : CStr → Nat} {s : Nl} {m : NlMsg} {del up running : Bool} {n : CStr}
    (h : OnLink del n up running m) : nlMsg index s m = nlLinkAttr index del up running s (.ifname n) := by
  obtain ⟨attrs, rfl, ha⟩ := h
  simp only [nlMsg, nlLink]
  rw [foldl_filter, ha]
  rfl

private theorem onLink_on {index : CStr → Nat} {s : Nl} {m : NlMsg} {del up running : Bool} {n : CStr}
    (h : OnLink del n up running m) (hn : IfName n) {x : CStr} (hx : IfName x) (k : NetKind) :
    (nlMsg index s m).on (netCond x k.text) =
      if x = n then (!del && k.sel up running) else s.on (netCond x k.text) := by
  rw [onLink_eq h]
  simp only [nlLinkAttr, hn.valid.1, hn.valid.2, if_true]
  by_cases e : x = n
  · subst e
    have h1 : (netCond x "exist" = netCond x "up") = False := by
      simp only [eq_iff_iff, iff_false]; intro h
      exact absurd (netCond_inj (k := .exist) (j := .up) hx hx h).2 (by decide)
    have h2 : (netCond x "exist" = netCond x "running") = False := by
      simp only [eq_iff_iff, iff_false]; intro h
      exact absurd (netCond_inj (k := .exist) (j := .running) hx hx h).2 (by decide)
    have h3 : (netCond x "up" = netCond x "running") = False := by
      simp only [eq_iff_iff, iff_false]; intro h
      exact absurd (netCond_inj (k := .up) (j := .running) hx hx h).2 (by decide)
    cases del <;> cases k <;> simp only [NetKind.text, NetKind.sel, Bool.false_eq_true, if_false, if_true, ite_check_on,
      check_on, cond_on, h1, h2, h3] <;> rfl
  · have g : ∀ (j : NetKind), (netCond x k.text = netCond n j.text) = False := by
      intro j
      simp only [eq_iff_iff, iff_false]
      intro h
      exact e (netCond_inj hx hn h).1
    have g1 := g .exist
    have g2 := g .up
    have g3 := g .running
    simp only [show NetKind.exist.text = "exist" from rfl, show NetKind.up.text = "up" from rfl,
      show NetKind.running.text = "running" from rfl] at g1 g2 g3
    cases del <;> simp only [Bool.false_eq_true, if_true, if_false, if_neg e, ite_check_on, check_on, cond_on, g1, g2,
      g3]

private theorem nlRoute_on {del : Bool} {len : Nat} {attrs : List NlAttr} {s : Nl} {x : CStr} (hx : IfName x)
    (k : NetKind) : (nlRoute del len attrs s).on (netCond x k.text) = s.on (netCond x k.text) := by
  unfold nlRoute
  dsimp only
  split
  · split <;> simp only [cond_on, netCond_route hx k, if_false]
  · rfl

/-- A message that the kernel sends -/
private inductive Msg : NlMsg → Prop
  | link {m del n up running} : IfName n → OnLink del n up running m → Msg m
  | route {del len attrs} : Msg (.route del len attrs)

/-- What the messages say on a condition -/
private def heard (x : CStr) (k : NetKind) (b : Bool) : NlMsg → Bool
  | .link del up running attrs => if .ifname x ∈ attrs then (!del && k.sel up running) else b
  | .route .. => b

private theorem ifname_mem {attrs : List NlAttr} {n x : CStr} (h : attrs.filter (· ≠ .other) = [.ifname n]) :
    .ifname x ∈ attrs ↔ x = n := by
  constructor
  · intro hm
    have : NlAttr.ifname x ∈ attrs.filter (· ≠ .other) := List.mem_filter.2 ⟨hm, by simp⟩
    rw [h] at this
    simpa using this
  · rintro rfl
    have : NlAttr.ifname x ∈ attrs.filter (· ≠ .other) := by rw [h]; simp
    exact (List.mem_filter.1 this).1

private theorem Msg.on {index : CStr → Nat} {s : Nl} {m : NlMsg} (h : Msg m) {x : CStr} (hx : IfName x) (k : NetKind) :
    (nlMsg index s m).on (netCond x k.text) = heard x k (s.on (netCond x k.text)) m := by
  cases h with
  | link hn h =>
    rw [onLink_on h hn hx k]
    obtain ⟨attrs, rfl, ha⟩ := h
    simp only [heard, ifname_mem ha]
  | route => exact nlRoute_on hx k

private theorem parse_on {index : CStr → Nat} {x : CStr} (hx : IfName x) (k : NetKind) : ∀ (q : List NlMsg) (s : Nl),
    (∀ m ∈ q, Msg m) →
    (nlParse index q s).on (netCond x k.text) = q.foldl (heard x k) (s.on (netCond x k.text))
  | [], _, _ => rfl
  | m :: q, s, h => by
    simp only [nlParse, List.foldl_cons]
    rw [← (h m (by simp)).on hx k (index := index)]
    exact parse_on hx k q _ (fun m' hm => h m' (List.mem_cons_of_mem _ hm))

private theorem OnOther.msg {d : Bool} {m : NlMsg} (h : OnOther d m) : Msg m := by
  obtain ⟨len, attrs, rfl, _⟩ := h; exact .route

private theorem OnDefault.msg {d : Bool} {r : KRoute} {m : NlMsg} (h : OnDefault d r m) : Msg m := by
  obtain ⟨attrs, rfl, _⟩ := h; exact .route

private theorem OnOther.heard {d : Bool} {m : NlMsg} (h : OnOther d m) (x : CStr) (k : NetKind) (b : Bool) :
    heard x k b m = b := by
  obtain ⟨len, attrs, rfl, _⟩ := h; rfl

private theorem OnDefault.heard {d : Bool} {r : KRoute} {m : NlMsg} (h : OnDefault d r m) (x : CStr) (k : NetKind)
    (b : Bool) : heard x k b m = b := by
  obtain ⟨attrs, rfl, _⟩ := h; rfl

private theorem OnLink.heard {d u r : Bool} {n : CStr} {m : NlMsg} (h : OnLink d n u r m) (x : CStr) (k : NetKind)
    (b : Bool) : heard x k b m = if x = n then (!d && k.sel u r) else b := by
  obtain ⟨attrs, rfl, ha⟩ := h
  simp only [Verif.heard, ifname_mem ha]

private theorem RouteDump.msg {K : Kern} {d : List NlMsg} (h : K.RouteDump d) : ∀ m ∈ d, Msg m := by
  intro m hm
  rcases h.only m hm with h | ⟨r, _, h⟩
  · exact h.msg
  · exact h.msg

private theorem RouteDump.heard {K : Kern} {x : CStr} {k : NetKind} : ∀ {d : List NlMsg} {b : Bool},
    (∀ m ∈ d, OnOther false m ∨ ∃ r ∈ K.routes, OnDefault false r m) → d.foldl (heard x k) b = b
  | [], _, _ => rfl
  | m :: d, b, h => by
    simp only [List.foldl_cons]
    have e : Verif.heard x k b m = b := by
      rcases h m (by simp) with h | ⟨r, _, h⟩
      · exact h.heard x k b
      · exact h.heard x k b
    rw [e]
    exact RouteDump.heard (fun m' hm => h m' (List.mem_cons_of_mem _ hm))

private theorem after_on {index : CStr → Nat} {K : Kern} {d : List NlMsg} (hd : K.RouteDump d) {x : CStr}
    (hx : IfName x) (k : NetKind) (s : Nl) :
    (nlAfter index d s).on (netCond x k.text) = s.on (netCond x k.text) := by
  have key : ∀ s' : Nl, (nlParse index d s').on (netCond x k.text) = s'.on (netCond x k.text) := by
    intro s'
    rw [parse_on hx k d s' (RouteDump.msg hd), RouteDump.heard hd.only]
  unfold nlAfter
  dsimp only
  split
  · split
    · split
      · simp only [cond_on, netCond_route hx k, if_false]
        exact key _
      · exact key _
    · rfl
  · rfl

/-- What is so for an interface -/
private def truth (K : Kern) (x : CStr) (k : NetKind) : Prop := ∃ l ∈ K.links, l.name = x ∧ k.sel l.up l.running = true

private theorem LinkDump.heard {K : Kern} (w : K.Wf) {x : CStr} {k : NetKind} : ∀ {d : List NlMsg} {b : Bool},
    (∀ m ∈ d, ∃ l ∈ K.links, OnLink false l.name l.up l.running m) →
    (d.foldl (heard x k) b = true ↔
      (b = true ∧ ∀ m ∈ d, ∀ l ∈ K.links, OnLink false l.name l.up l.running m → l.name ≠ x) ∨
      ∃ m ∈ d, ∃ l ∈ K.links, OnLink false l.name l.up l.running m ∧ l.name = x ∧ k.sel l.up l.running = true)
  | [], b, _ => by simp
  | m :: d, b, h => by
    obtain ⟨l, hl, hm⟩ := h m (by simp)
    simp only [List.foldl_cons]
    rw [LinkDump.heard w (fun m' hm => h m' (List.mem_cons_of_mem _ hm)), hm.heard x k b]
    have uniq : ∀ l' ∈ K.links, OnLink false l'.name l'.up l'.running m → l' = l := by
      intro l' hl' h'
      refine w.names _ hl' _ hl ?_
      obtain ⟨a1, e1, f1⟩ := hm
      obtain ⟨a2, e2, f2⟩ := h'
      rw [e1] at e2
      simp only [NlMsg.link.injEq] at e2
      rw [← e2.2.2.2, f1] at f2
      simpa using f2.symm
    by_cases e : x = l.name
    · rw [if_pos e]
      simp only [Bool.not_false, Bool.true_and]
      constructor
      · rintro (⟨hs, hd⟩ | ⟨m', hm', l', hl', h1, h2, h3⟩)
        · exact .inr ⟨m, by simp, l, hl, hm, e.symm, hs⟩
        · exact .inr ⟨m', List.mem_cons_of_mem _ hm', l', hl', h1, h2, h3⟩
      · rintro (⟨_, hd⟩ | ⟨m', hm', l', hl', h1, h2, h3⟩)
        · exact absurd e.symm (hd m (by simp) l hl hm)
        · have : l' = l := w.names _ hl' _ hl (h2.trans e)
          subst this
          by_cases hex : ∃ m'' ∈ d, ∃ l'' ∈ K.links, OnLink false l''.name l''.up l''.running m'' ∧ l''.name = x
          · obtain ⟨m'', hm'', l'', hl'', g1, g2⟩ := hex
            have : l'' = l' := w.names _ hl'' _ hl (g2.trans e)
            subst this
            exact .inr ⟨m'', hm'', l'', hl'', g1, g2, h3⟩
          · exact .inl ⟨h3, fun m'' hm'' l'' hl'' g1 g2 => hex ⟨m'', hm'', l'', hl'', g1, g2⟩⟩
    · rw [if_neg e]
      constructor
      · rintro (⟨hb, hd⟩ | ⟨m', hm', l', hl', h1, h2, h3⟩)
        · refine .inl ⟨hb, fun m' hm' l' hl' h1 h2 => ?_⟩
          rcases List.mem_cons.1 hm' with rfl | hm'
          · rw [uniq l' hl' h1] at h2; exact e h2.symm
          · exact hd m' hm' l' hl' h1 h2
        · exact .inr ⟨m', List.mem_cons_of_mem _ hm', l', hl', h1, h2, h3⟩
      · rintro (⟨hb, hd⟩ | ⟨m', hm', l', hl', h1, h2, h3⟩)
        · exact .inl ⟨hb, fun m' hm' => hd m' (List.mem_cons_of_mem _ hm')⟩
        · rcases List.mem_cons.1 hm' with rfl | hm'
          · rw [uniq l' hl' h1] at h2; exact absurd h2.symm e
          · exact .inr ⟨m', hm', l', hl', h1, h2, h3⟩

private theorem LinkDump.msg {K : Kern} (w : K.Wf) {d : List NlMsg} (h : K.LinkDump d) : ∀ m ∈ d, Msg m := by
  intro m hm
  obtain ⟨l, hl, h⟩ := h.only m hm
  exact .link (w.good l hl).2 h

private theorem netCond_prefix (x : CStr) (k : String) : "net/".toList.isPrefixOf (netCond x k) = true := by
  simp [netCond]

private theorem resync_on {index : CStr → Nat} {K : Kern} (w : K.Wf) {links routes : List NlMsg}
    (hl : K.LinkDump links) (hr : K.RouteDump routes) {x : CStr} (hx : IfName x) (k : NetKind) (s : Nl) :
    (nlResync index links routes s).on (netCond x k.text) = true ↔ truth K x k := by
  unfold nlResync
  rw [parse_on hx k _ _ (RouteDump.msg hr), RouteDump.heard hr.only, parse_on hx k _ _ (LinkDump.msg w hl)]
  dsimp only
  rw [netCond_prefix]
  simp only [Bool.not_true, Bool.and_false]
  rw [LinkDump.heard w hl.only]
  simp only [Bool.false_eq_true, false_and, false_or]
  constructor
  · rintro ⟨m, _, l, hl, _, h1, h2⟩; exact ⟨l, hl, h1, h2⟩
  · rintro ⟨l, hl', h1, h2⟩
    obtain ⟨m, hm, h⟩ := hl.all l hl'
    exact ⟨m, hm, l, hl', h, h1, h2⟩

private theorem KEvent.wf {K : Kern} {e : KEvent} (w : K.Wf) (may : e.May K) : (e.next K).Wf := by
  cases e with
  | appear l =>
    obtain ⟨h0, hn, hx⟩ := may
    refine ⟨?_, ?_, ?_, ?_⟩
    · intro a ha b hb e
      rcases List.mem_cons.1 ha with ea | ha' <;> rcases List.mem_cons.1 hb with eb | hb'
      · rw [ea, eb]
      · rw [ea] at e; exact absurd e.symm (hx b hb').1
      · rw [eb] at e; exact absurd e (hx a ha').1
      · exact w.idxs a ha' b hb' e
    · intro a ha b hb e
      rcases List.mem_cons.1 ha with ea | ha' <;> rcases List.mem_cons.1 hb with eb | hb'
      · rw [ea, eb]
      · rw [ea] at e; exact absurd e.symm (hx b hb').2
      · rw [eb] at e; exact absurd e (hx a ha').2
      · exact w.names a ha' b hb' e
    · intro a ha
      rcases List.mem_cons.1 ha with rfl | ha
      · exact ⟨h0, hn⟩
      · exact w.good a ha
    · intro r hr
      obtain ⟨l', h', h2⟩ := w.over r hr
      exact ⟨l', List.mem_cons_of_mem _ h', h2⟩
  | flags l up running =>
    refine ⟨?_, ?_, ?_, ?_⟩
    · intro a ha b hb e
      obtain ⟨a', ha', rfl⟩ := List.mem_map.1 ha
      obtain ⟨b', hb', rfl⟩ := List.mem_map.1 hb
      have : a' = b' := by
        refine w.idxs _ ha' _ hb' ?_
        revert e; split <;> split <;> exact id
      rw [this]
    · intro a ha b hb e
      obtain ⟨a', ha', rfl⟩ := List.mem_map.1 ha
      obtain ⟨b', hb', rfl⟩ := List.mem_map.1 hb
      have : a' = b' := by
        refine w.names _ ha' _ hb' ?_
        revert e; split <;> split <;> exact id
      rw [this]
    · intro a ha
      obtain ⟨a', ha', rfl⟩ := List.mem_map.1 ha
      have := w.good a' ha'
      split <;> exact this
    · intro r hr
      have hr' : r ∈ K.routes := by
        revert hr; simp only [KEvent.next]; split
        · exact id
        · exact fun h => (List.mem_filter.1 h).1
      obtain ⟨l', h', h2, h3⟩ := w.over r hr'
      refine ⟨_, List.mem_map.2 ⟨l', h', rfl⟩, ?_⟩
      by_cases e : l'.idx = l.idx
      · simp only [if_pos e]
        refine ⟨h2, ?_⟩
        cases up
        · simp only [KEvent.next, Bool.false_eq_true, if_false, List.mem_filter, decide_eq_true_eq] at hr
          exact absurd (h2.symm.trans e) hr.2
        · rfl
      · simp only [if_neg e]
        exact ⟨h2, h3⟩
  | vanish l =>
    refine ⟨?_, ?_, ?_, ?_⟩
    · intro a ha b hb e
      exact w.idxs a (List.mem_filter.1 ha).1 b (List.mem_filter.1 hb).1 e
    · intro a ha b hb e
      exact w.names a (List.mem_filter.1 ha).1 b (List.mem_filter.1 hb).1 e
    · intro a ha; exact w.good a (List.mem_filter.1 ha).1
    · intro r hr
      obtain ⟨hr, h1⟩ := List.mem_filter.1 hr
      obtain ⟨l', h', h2, h3⟩ := w.over r hr
      refine ⟨l', List.mem_filter.2 ⟨h', ?_⟩, h2, h3⟩
      simp only [decide_eq_true_eq] at h1 ⊢
      rw [h2]; exact h1
  | rename l n =>
    obtain ⟨hl, hn, hx⟩ := may
    refine ⟨?_, ?_, ?_, ?_⟩
    · intro a ha b hb e
      obtain ⟨a', ha', rfl⟩ := List.mem_map.1 ha
      obtain ⟨b', hb', rfl⟩ := List.mem_map.1 hb
      have : a' = b' := by
        refine w.idxs _ ha' _ hb' ?_
        revert e; split <;> split <;> exact id
      rw [this]
    · intro a ha b hb e
      obtain ⟨a', ha', rfl⟩ := List.mem_map.1 ha
      obtain ⟨b', hb', rfl⟩ := List.mem_map.1 hb
      have : a' = b' := by
        by_cases ea : a'.idx = l.idx <;> by_cases eb : b'.idx = l.idx
        · exact w.idxs _ ha' _ hb' (ea.trans eb.symm)
        · simp only [if_pos ea, if_neg eb] at e
          exact absurd e.symm (hx b' hb')
        · simp only [if_neg ea, if_pos eb] at e
          exact absurd e (hx a' ha')
        · simp only [if_neg ea, if_neg eb] at e
          exact w.names _ ha' _ hb' e
      rw [this]
    · intro a ha
      obtain ⟨a', ha', rfl⟩ := List.mem_map.1 ha
      have := w.good a' ha'
      split
      · exact ⟨this.1, hn⟩
      · exact this
    · intro r hr
      obtain ⟨l', h', h2, h3⟩ := w.over r hr
      refine ⟨_, List.mem_map.2 ⟨l', h', rfl⟩, ?_⟩
      split <;> exact ⟨h2, h3⟩
  | addRoute r =>
    refine ⟨w.idxs, w.names, w.good, ?_⟩
    intro r' hr
    rcases List.mem_cons.1 hr with rfl | hr
    · exact may
    · exact w.over r' hr
  | delRoute r =>
    refine ⟨w.idxs, w.names, w.good, ?_⟩
    intro r' hr
    exact w.over r' (List.mem_of_mem_erase hr)
  | other d => exact w

private theorem KEvent.msg {K : Kern} {e : KEvent} (w : K.Wf) (may : e.May K) {m : NlMsg} (t : e.Tells m) : Msg m := by
  cases e with
  | appear l => exact .link may.2.1 t
  | flags l up running => exact .link (w.good l may).2 t
  | vanish l => exact .link (w.good l may).2 t
  | rename l n => exact .link may.2.1 t
  | addRoute r => exact OnDefault.msg t
  | delRoute r => exact OnDefault.msg t
  | other d => exact OnOther.msg t

/-- A message on an interface says what is so from then on, unless it tells of a new name -/
private theorem KEvent.truth {K : Kern} {e : KEvent} (w : K.Wf) (may : e.May K) {m : NlMsg} (t : e.Tells m)
    (hre : ∀ l n, e ≠ .rename l n) {x : CStr} {k : NetKind} {b : Bool} (h : b = true ↔ truth K x k) :
    heard x k b m = true ↔ truth (e.next K) x k := by
  cases e with
  | appear l =>
    rw [OnLink.heard t x k b]
    by_cases e : x = l.name
    · subst e
      rw [if_pos rfl]
      simp only [Bool.not_false, Bool.true_and]
      constructor
      · intro hs; exact ⟨l, by simp [KEvent.next], rfl, hs⟩
      · rintro ⟨l', hl', h1, h2⟩
        rcases List.mem_cons.1 hl' with rfl | hl'
        · exact h2
        · exact absurd h1 (may.2.2 l' hl').2
    · rw [if_neg e, h]
      constructor
      · rintro ⟨l', hl', h1, h2⟩; exact ⟨l', List.mem_cons_of_mem _ hl', h1, h2⟩
      · rintro ⟨l', hl', h1, h2⟩
        rcases List.mem_cons.1 hl' with rfl | hl'
        · exact absurd h1.symm e
        · exact ⟨l', hl', h1, h2⟩
  | flags l up running =>
    rw [OnLink.heard t x k b]
    have may : l ∈ K.links := may
    by_cases e : x = l.name
    · subst e
      rw [if_pos rfl]
      simp only [Bool.not_false, Bool.true_and]
      constructor
      · intro hs
        refine ⟨_, List.mem_map.2 ⟨l, may, rfl⟩, ?_⟩
        rw [if_pos rfl]
        exact ⟨rfl, hs⟩
      · rintro ⟨l', hl', h1, h2⟩
        obtain ⟨a, ha, rfl⟩ := List.mem_map.1 hl'
        by_cases ea : a.idx = l.idx
        · simp only [if_pos ea] at h2; exact h2
        · simp only [if_neg ea] at h1
          exact absurd (congrArg KLink.idx (w.names _ ha _ may h1)) ea
    · rw [if_neg e, h]
      constructor
      · rintro ⟨l', hl', h1, h2⟩
        refine ⟨_, List.mem_map.2 ⟨l', hl', rfl⟩, ?_⟩
        have : l'.idx ≠ l.idx := by
          intro hi; exact e (by rw [← h1, w.idxs _ hl' _ may hi])
        simp only [if_neg this]
        exact ⟨h1, h2⟩
      · rintro ⟨l', hl', h1, h2⟩
        obtain ⟨a, ha, rfl⟩ := List.mem_map.1 hl'
        by_cases ea : a.idx = l.idx
        · simp only [if_pos ea] at h1
          exact absurd (by rw [← h1, w.idxs _ ha _ may ea]) e
        · simp only [if_neg ea] at h1 h2
          exact ⟨a, ha, h1, h2⟩
  | vanish l =>
    rw [OnLink.heard t x k b]
    have may : l ∈ K.links := may
    by_cases e : x = l.name
    · subst e
      rw [if_pos rfl]
      simp only [Bool.not_true, Bool.false_and, Bool.false_eq_true, false_iff]
      rintro ⟨l', hl', h1, h2⟩
      obtain ⟨hm, hi⟩ := List.mem_filter.1 hl'
      simp only [decide_eq_true_eq] at hi
      exact hi (congrArg KLink.idx (w.names _ hm _ may h1))
    · rw [if_neg e, h]
      constructor
      · rintro ⟨l', hl', h1, h2⟩
        refine ⟨l', List.mem_filter.2 ⟨hl', ?_⟩, h1, h2⟩
        simp only [decide_eq_true_eq]
        intro hi; exact e (by rw [← h1, w.idxs _ hl' _ may hi])
      · rintro ⟨l', hl', h1, h2⟩
        exact ⟨l', (List.mem_filter.1 hl').1, h1, h2⟩
  | rename l n => exact absurd rfl (hre l n)
  | addRoute r => rw [OnDefault.heard t x k b]; exact h
  | delRoute r => rw [OnDefault.heard t x k b]; exact h
  | other d => rw [OnOther.heard t x k b]; exact h

private structure LInv (s : NetSys) : Prop where
  wf : s.kern.Wf
  keep : s.lost = false
  msgs : ∀ m ∈ s.queue, Msg m
  right : ∀ x, IfName x → ∀ k : NetKind,
    s.queue.foldl (heard x k) (s.nl.on (netCond x k.text)) = true ↔ truth s.kern x k

private theorem linv {s : NetSys} {allow : NetSys → KEvent → Prop} (ha : ∀ s e, allow s e → ∀ l n, e ≠ .rename l n)
    (h : NetReach allow False s) : LInv s := by
  induction h with
  | boot w hl hr h1 h2 =>
    exact ⟨w, rfl, by simp, fun x hx k => resync_on w hl hr hx k _⟩
  | @event s e m _ hal may t ih =>
    refine ⟨KEvent.wf ih.wf may, ih.keep, ?_, ?_⟩
    · intro m' hm'
      rcases List.mem_append.1 hm' with h | h
      · exact ih.msgs m' h
      · rw [List.mem_singleton.1 h]
        exact KEvent.msg ih.wf may t
    · intro x hx k
      simp only [List.foldl_append, List.foldl_cons, List.foldl_nil]
      exact KEvent.truth ih.wf may t (ha _ _ hal) (ih.right x hx k)
  | miss _ hl => exact hl.elim
  | @read s routes _ _ hr ih =>
    refine ⟨ih.wf, ih.keep, by simp, fun x hx k => ?_⟩
    simp only [List.foldl_nil, nlCallback]
    rw [after_on hr hx k, parse_on hx k _ _ ih.msgs]
    exact ih.right x hx k
  | resync _ hl _ _ ih => rw [ih.keep] at hl; cases hl

/-! ## Lemmas: the default route -/

private theorem attrs_gw (len g : Nat) : ∀ (attrs : List NlAttr) (r : NlRt), (∀ a, .gateway a ∈ attrs → a = g) →
    (attrs.foldl (nlRouteAttr len) r).gw = r.gw ∧ (∀ a, .gateway a ∉ attrs) ∨
    (attrs.foldl (nlRouteAttr len) r).gw = g ∧ .gateway g ∈ attrs
  | [], r, _ => .inl ⟨rfl, by simp⟩
  | a :: as, r, h => by
    have ih := attrs_gw len g as (nlRouteAttr len r a) (fun a' ha => h a' (List.mem_cons_of_mem _ ha))
    simp only [List.foldl_cons]
    rcases ih with ⟨e, hn⟩ | ⟨e, hm⟩
    · cases a with
      | gateway b =>
        have : b = g := h b (by simp)
        subst this
        exact .inr ⟨e, by simp⟩
      | _ => exact .inl ⟨e, by simpa using hn⟩
    · exact .inr ⟨e, List.mem_cons_of_mem _ hm⟩

private theorem attrs_oif (len i : Nat) : ∀ (attrs : List NlAttr) (r : NlRt), (∀ a, .oif a ∈ attrs → a = i) →
    (attrs.foldl (nlRouteAttr len) r).idx = r.idx ∧ (∀ a, .oif a ∉ attrs) ∨
    (attrs.foldl (nlRouteAttr len) r).idx = i ∧ .oif i ∈ attrs
  | [], r, _ => .inl ⟨rfl, by simp⟩
  | a :: as, r, h => by
    have ih := attrs_oif len i as (nlRouteAttr len r a) (fun a' ha => h a' (List.mem_cons_of_mem _ ha))
    simp only [List.foldl_cons]
    rcases ih with ⟨e, hn⟩ | ⟨e, hm⟩
    · cases a with
      | oif b =>
        have : b = i := h b (by simp)
        subst this
        exact .inr ⟨e, by simp⟩
      | _ => exact .inl ⟨e, by simpa using hn⟩
    · exact .inr ⟨e, List.mem_cons_of_mem _ hm⟩

private theorem attrs_dst (len : Nat) : ∀ (attrs : List NlAttr) (r : NlRt),
    (attrs.foldl (nlRouteAttr len) r).dst = r.dst ∧ (attrs.foldl (nlRouteAttr len) r).plen = r.plen ∧
      (∀ a, .dst a ∉ attrs) ∨
    (attrs.foldl (nlRouteAttr len) r).plen = len ∧ ∃ a, .dst a ∈ attrs
  | [], r => .inl ⟨rfl, rfl, by simp⟩
  | a :: as, r => by
    have ih := attrs_dst len as (nlRouteAttr len r a)
    simp only [List.foldl_cons]
    rcases ih with ⟨e, e2, hn⟩ | ⟨e, b, hm⟩
    · cases a with
      | dst b => exact .inr ⟨e2, b, by simp⟩
      | _ => exact .inl ⟨e, e2, by simpa using hn⟩
    · exact .inr ⟨e, b, List.mem_cons_of_mem _ hm⟩

private theorem OnOther.eq {d : Bool} {m : NlMsg} (h : OnOther d m) (index : CStr → Nat) (s : Nl) :
    nlMsg index s m = s := by
  obtain ⟨len, attrs, rfl, hl, a, ha⟩ := h
  simp only [nlMsg, nlRoute]
  rcases attrs_dst len attrs {} with ⟨_, _, h⟩ | ⟨h, _⟩
  · exact absurd ha (h a)
  · rw [if_neg]
    rintro ⟨⟨_, h2⟩, _⟩
    omega

private theorem OnDefault.eq {d : Bool} {r : KRoute} {m : NlMsg} (h : OnDefault d r m) (h0 : 0 < r.oif)
    (index : CStr → Nat) (s : Nl) :
    nlMsg index s m = if d then { s.cond "net/route/default".toList false with defidx := 0 }
      else { s.cond "net/route/default".toList true with defidx := r.oif } := by
  obtain ⟨attrs, rfl, hd, _, ho⟩ := h
  simp only [nlMsg, nlRoute]
  rcases attrs_dst 0 attrs {} with ⟨e1, e2, _⟩ | ⟨_, a, h⟩
  · rcases attrs_oif 0 r.oif attrs {} (fun a h => (ho a).1 h) with ⟨_, h⟩ | ⟨e3, _⟩
    · exact absurd ((ho r.oif).2 rfl) (h _)
    · rw [if_pos ⟨⟨e1, e2⟩, .inr (by omega)⟩, e3]
  · exact absurd h (hd a)

private theorem Wf.oif {K : Kern} (w : K.Wf) : ∀ r ∈ K.routes, 0 < r.oif := by
  intro r hr
  obtain ⟨l, hl, h, _⟩ := w.over r hr
  have := (w.good l hl).1
  omega

private theorem dump_eq {K : Kern} (h0 : ∀ r ∈ K.routes, 0 < r.oif) {index : CStr → Nat} : ∀ (d : List NlMsg) (s : Nl),
    (∀ m ∈ d, OnOther false m ∨ ∃ r ∈ K.routes, OnDefault false r m) →
    (nlParse index d s).ifdown = s.ifdown ∧
    ((nlParse index d s = s ∧ ∀ m ∈ d, OnOther false m) ∨
     ((nlParse index d s).on "net/route/default".toList = true ∧ ∃ r ∈ K.routes, r.oif = (nlParse index d s).defidx))
  | [], s, _ => ⟨rfl, .inl ⟨rfl, by simp⟩⟩
  | m :: d, s, h => by
    have ih := dump_eq h0 (index := index) d (nlMsg index s m) (fun m' hm => h m' (List.mem_cons_of_mem _ hm))
    change ((nlParse index d (nlMsg index s m)).ifdown = s.ifdown) ∧ ((nlParse index d (nlMsg index s m) = s ∧ _) ∨
      ((nlParse index d (nlMsg index s m)).on _ = true ∧ ∃ r ∈ K.routes, r.oif = (nlParse index d (nlMsg index s m)).defidx))
    rcases h m (by simp) with hm | ⟨r, hr, hm⟩
    · have e := OnOther.eq hm index s
      rw [e] at ih ⊢
      refine ⟨ih.1, ?_⟩
      rcases ih.2 with ⟨h1, h2⟩ | h1
      · refine .inl ⟨h1, ?_⟩
        intro m' hm'
        rcases List.mem_cons.1 hm' with rfl | hm'
        · exact hm
        · exact h2 m' hm'
      · exact .inr h1
    · have e := OnDefault.eq hm (h0 r hr) index s
      simp only [Bool.false_eq_true, if_false] at e
      refine ⟨by rw [ih.1, e]; rfl, .inr ?_⟩
      rcases ih.2 with ⟨h1, h2⟩ | h1
      · rw [h1, e]
        exact ⟨by simp [cond_on], r, hr, rfl⟩
      · exact h1

private theorem not_both {m : NlMsg} {r : KRoute} (h : OnDefault false r m) : ¬ OnOther false m := by
  rintro ⟨len, attrs, rfl, _, a, ha⟩
  obtain ⟨attrs', e, hd, _⟩ := h
  simp only [NlMsg.route.injEq] at e
  rw [← e.2.2] at hd
  exact hd a ha

/-- The answer to a question for all routes puts things right -/
private theorem dump_right {K : Kern} (w : K.Wf) {index : CStr → Nat} {d : List NlMsg} (hd : K.RouteDump d) (s : Nl) :
    (nlParse index d s).ifdown = s.ifdown ∧
    ((K.routes = [] ∧ nlParse index d s = s) ∨
     (K.routes ≠ [] ∧ (nlParse index d s).on "net/route/default".toList = true ∧
       ∃ r ∈ K.routes, r.oif = (nlParse index d s).defidx)) := by
  have h := dump_eq (Wf.oif w) (index := index) d s hd.only
  refine ⟨h.1, ?_⟩
  rcases h.2 with ⟨h1, h2⟩ | ⟨h1, r, hr, h2⟩
  · left
    refine ⟨?_, h1⟩
    cases hK : K.routes with
    | nil => rfl
    | cons r rs =>
      obtain ⟨m, hm, h3⟩ := hd.all r (by rw [hK]; simp)
      exact absurd (h2 m hm) (not_both h3)
  · right
    refine ⟨?_, h1, r, hr, h2⟩
    intro e; rw [e] at hr; cases hr

private structure RInv (K : Kern) (s : Nl) : Prop where
  wf : K.Wf
  calm : s.ifdown = false
  none : K.routes = [] → s.on "net/route/default".toList = false ∧ s.defidx = 0
  some : K.routes ≠ [] → s.on "net/route/default".toList = true ∧ ∃ r ∈ K.routes, r.oif = s.defidx

private theorem index_mem {K : Kern} (w : K.Wf) {l : KLink} (h : l ∈ K.links) : K.index l.name = l.idx := by
  unfold Kern.index
  cases hf : K.links.find? (fun x => decide (x.name = l.name)) with
  | none =>
    have := List.find?_eq_none.1 hf l h
    simp at this
  | some x =>
    have h1 := List.find?_some hf
    simp only [decide_eq_true_eq] at h1
    dsimp only
    rw [w.names _ (List.mem_of_find?_eq_some hf) _ h h1]

private theorem index_none {K : Kern} {n : CStr} (h : ∀ l ∈ K.links, l.name ≠ n) : K.index n = 0 := by
  unfold Kern.index
  have : K.links.find? (fun x => decide (x.name = n)) = none := by
    rw [List.find?_eq_none]
    intro x hx
    simpa using h x hx
  rw [this]

private theorem link_other {index : CStr → Nat} {s : Nl} {del up running : Bool} {n c : CStr}
    (g1 : c ≠ netCond n "exist") (g2 : c ≠ netCond n "up") (g3 : c ≠ netCond n "running") (hn : IfName n) :
    (nlLinkAttr index del up running s (.ifname n)).on c = s.on c := by
  simp only [nlLinkAttr, hn.valid.1, hn.valid.2, if_true]
  cases del <;> simp only [Bool.false_eq_true, if_true, if_false, ite_check_on, check_on, cond_on, g1, g2, g3]

private theorem link_state {index : CStr → Nat} {s : Nl} {m : NlMsg} {del up running : Bool} {n : CStr}
    (h : OnLink del n up running m) (hn : IfName n) :
    (nlMsg index s m).defidx = s.defidx ∧
    (nlMsg index s m).on "net/route/default".toList = s.on "net/route/default".toList ∧
    ((nlMsg index s m).ifdown = if (del || !up || !running) = true ∧
        ((0 < s.defidx ∧ s.defidx = index n) ∨ index n = 0) then true else s.ifdown) := by
  rw [onLink_eq h]
  refine ⟨?_, link_other (netCond_route hn .exist).symm (netCond_route hn .up).symm
    (netCond_route hn .running).symm hn, ?_⟩
  · simp only [nlLinkAttr, hn.valid.1, hn.valid.2, if_true]
    cases del
    · simp only [Bool.false_eq_true, if_false]
      split
      · exact check_defidx ..
      · rfl
    · exact check_defidx ..
  · simp only [nlLinkAttr, hn.valid.1, hn.valid.2, if_true]
    cases del
    · simp only [Bool.false_eq_true, if_false, Bool.false_or]
      split
      · rename_i hc
        rw [check_ifdown]
        simp only [Nl.cond, hc, true_and]
        exact ite_congr rfl (fun _ => rfl) (fun _ => rfl)
      · rename_i hc
        rw [if_neg (fun h => hc h.1)]
        rfl
    · simp only [if_true, Bool.true_or, true_and]
      rw [check_ifdown]
      rfl

private theorem links_quiet {K : Kern} (w : K.Wf) : ∀ (d : List NlMsg) (s : Nl),
    (∀ m ∈ d, ∃ l ∈ K.links, OnLink false l.name l.up l.running m) → s.defidx = 0 →
    (nlParse K.index d s).ifdown = s.ifdown ∧ (nlParse K.index d s).defidx = 0 ∧
    (nlParse K.index d s).on "net/route/default".toList = s.on "net/route/default".toList
  | [], s, _, h0 => ⟨rfl, h0, rfl⟩
  | m :: d, s, h, h0 => by
    obtain ⟨l, hl, hm⟩ := h m (by simp)
    have hn := (w.good l hl).2
    obtain ⟨a, b, c⟩ := link_state (index := K.index) (s := s) hm hn
    have hi : K.index l.name ≠ 0 := by
      rw [index_mem w hl]; have := (w.good l hl).1; omega
    rw [if_neg (fun h => h.2.elim (fun h => by omega) (fun h => hi h))] at c
    have key : (nlMsg K.index s m).ifdown = s.ifdown ∧ (nlMsg K.index s m).defidx = 0 ∧
        (nlMsg K.index s m).on "net/route/default".toList = s.on "net/route/default".toList := ⟨c, a.trans h0, b⟩
    have ih := links_quiet w d (nlMsg K.index s m) (fun m' hm => h m' (List.mem_cons_of_mem _ hm)) key.2.1
    change (nlParse K.index d (nlMsg K.index s m)).ifdown = _ ∧ (nlParse K.index d (nlMsg K.index s m)).defidx = 0 ∧
      (nlParse K.index d (nlMsg K.index s m)).on _ = _
    exact ⟨ih.1.trans key.1, ih.2.1, ih.2.2.trans key.2.2⟩

private theorem boot_rinv {K : Kern} (w : K.Wf) {links routes : List NlMsg} (hl : K.LinkDump links)
    (hr : K.RouteDump routes) {s : Nl} (h1 : s.ifdown = false) (h2 : s.defidx = 0) :
    RInv K (nlResync K.index links routes s) := by
  unfold nlResync
  have q := links_quiet w links { s with on := fun c => s.on c && !("net/".toList.isPrefixOf c) } hl.only h2
  generalize hs' : nlParse K.index links { s with on := fun c => s.on c && !("net/".toList.isPrefixOf c) } = s' at q ⊢
  have hoff : s'.on "net/route/default".toList = false := by
    rw [q.2.2]
    have : "net/".toList.isPrefixOf "net/route/default".toList = true := by decide
    simp only [this, Bool.not_true, Bool.and_false]
  obtain ⟨d1, d2⟩ := dump_right w (index := K.index) hr s'
  rcases d2 with ⟨e, d2⟩ | ⟨e, d2, d3⟩
  · exact ⟨w, by rw [d1, q.1]; exact h1, fun _ => by rw [d2]; exact ⟨hoff, q.2.1⟩, fun h => absurd e h⟩
  · exact ⟨w, by rw [d1, q.1]; exact h1, fun h => absurd h e, fun _ => ⟨d2, d3⟩⟩

/-- The end of `nl_callback` after a message on an interface -/
private theorem after_rinv {K : Kern} (w : K.Wf) {d : List NlMsg} (hd : K.RouteDump d) {s : Nl}
    (h : s.ifdown = false → RInv K s) (hz : s.ifdown = true → s.defidx = 0 → K.routes = [] ∧
      s.on "net/route/default".toList = false) : RInv K (nlAfter K.index d s) := by
  unfold nlAfter
  dsimp only
  split
  · rename_i hs
    by_cases h0 : 0 < s.defidx
    · rw [if_pos h0]
      obtain ⟨d1, d2⟩ := dump_right w (index := K.index) hd { s with defidx := 0 }
      generalize nlParse K.index d { s with defidx := 0 } = s' at d1 d2 ⊢
      rcases d2 with ⟨e, d2⟩ | ⟨e, d2, r, hr, d3⟩
      · subst d2
        dsimp only
        rw [if_pos rfl]
        exact ⟨w, rfl, fun _ => ⟨by simp [cond_on], rfl⟩, fun h => absurd e h⟩
      · have := Wf.oif w r hr
        rw [if_neg (by omega)]
        exact ⟨w, rfl, fun h => absurd h e, fun _ => ⟨d2, r, hr, d3⟩⟩
    · rw [if_neg h0]
      have := hz hs (by omega)
      exact ⟨w, rfl, fun _ => ⟨this.2, by show s.defidx = 0; omega⟩, fun h => absurd this.1 h⟩
  · rename_i hs
    exact h (by simpa using hs)

/-- The events for which the condition of the default route is right -/
private def Fine (s : NetSys) (e : KEvent) : Prop :=
  s.queue = [] ∧ (∀ l n, e ≠ .rename l n) ∧ ∀ r, e = .delRoute r → s.kern.routes = [r]

private theorem fine_rinv {K : Kern} {s : Nl} (h : RInv K s) {e : KEvent} {m : NlMsg} (may : e.May K) (t : e.Tells m)
    (hre : ∀ l n, e ≠ .rename l n) (hdel : ∀ r, e = .delRoute r → K.routes = [r]) {d : List NlMsg}
    (hd : (e.next K).RouteDump d) : RInv (e.next K) (nlCallback (e.next K).index d [m] s) := by
  have w := KEvent.wf h.wf may
  have hoff : s.defidx = 0 → K.routes = [] := by
    intro h0
    refine Classical.byContradiction fun hne => ?_
    obtain ⟨_, r, hr, hi⟩ := h.some hne
    have := Wf.oif h.wf r hr
    omega
  refine after_rinv w hd ?_ ?_
  all_goals change (nlMsg _ s m).ifdown = _ → _
  · intro hif
    change RInv _ (nlMsg _ s m)
    cases e with
    | appear l =>
      obtain ⟨a, b, c⟩ := link_state (index := (KEvent.next K (.appear l)).index) (s := s) t may.2.1
      refine ⟨w, hif, ?_, ?_⟩
      · intro hr; rw [a, b]; exact h.none hr
      · intro hr; rw [a, b]; exact h.some hr
    | flags l up running =>
      have hl : l ∈ K.links := may
      obtain ⟨a, b, c⟩ := link_state (index := (KEvent.next K (.flags l up running)).index) (s := s) t
        (h.wf.good l hl).2
      rw [hif] at c
      have hidx : (KEvent.next K (.flags l up running)).index l.name = l.idx := by
        have hm : { l with up := up, running := running } ∈ (KEvent.next K (.flags l up running)).links :=
          List.mem_map.2 ⟨l, hl, by simp⟩
        exact index_mem (l := { l with up := up, running := running }) w hm
      rw [hidx] at c
      have keep : ∀ r ∈ K.routes, r.oif = s.defidx → r ∈ (KEvent.next K (.flags l up running)).routes := by
        intro r hr hi
        simp only [KEvent.next]
        cases up
        · simp only [Bool.false_eq_true, if_false, List.mem_filter, decide_eq_true_eq]
          refine ⟨hr, fun he => ?_⟩
          have := Wf.oif h.wf r hr
          rw [if_pos ⟨by simp, .inl ⟨by omega, by omega⟩⟩] at c
          cases c
        · exact hr
      refine ⟨w, hif, ?_, ?_⟩
      · intro hr
        rw [a, b]
        refine h.none ?_
        cases hK : K.routes with
        | nil => rfl
        | cons r0 rs =>
          obtain ⟨_, r, hr', hi⟩ := h.some (by rw [hK]; simp)
          have := keep r hr' hi
          rw [hr] at this; cases this
      · intro hr
        rw [a, b]
        have hne : K.routes ≠ [] := by
          intro e0
          simp only [KEvent.next, e0] at hr
          exact hr (by split <;> rfl)
        obtain ⟨ho, r, hr', hi⟩ := h.some hne
        exact ⟨ho, r, keep r hr' hi, hi⟩
    | vanish l =>
      have hl : l ∈ K.links := may
      obtain ⟨a, b, c⟩ := link_state (index := (KEvent.next K (.vanish l)).index) (s := s) t (h.wf.good l hl).2
      rw [hif] at c
      have hidx : (KEvent.next K (.vanish l)).index l.name = 0 := by
        refine index_none ?_
        intro x hx e
        obtain ⟨hm, hi⟩ := List.mem_filter.1 hx
        simp only [decide_eq_true_eq] at hi
        exact hi (congrArg KLink.idx (h.wf.names _ hm _ hl e))
      rw [if_pos ⟨by simp, .inr hidx⟩] at c
      cases c
    | rename l n => exact absurd rfl (hre l n)
    | addRoute r =>
      have h0 : 0 < r.oif := Wf.oif w r (by simp [KEvent.next])
      have e := OnDefault.eq t h0 (KEvent.next K (.addRoute r)).index s
      simp only [Bool.false_eq_true, if_false] at e
      rw [e]
      exact ⟨w, h.calm, fun h => by simp [KEvent.next] at h, fun _ => ⟨by simp [cond_on], r, by simp [KEvent.next], rfl⟩⟩
    | delRoute r =>
      have h0 : 0 < r.oif := Wf.oif h.wf r may
      have e := OnDefault.eq t h0 (KEvent.next K (.delRoute r)).index s
      simp only [if_true] at e
      rw [e]
      have := hdel r rfl
      refine ⟨w, h.calm, fun h => ⟨by simp [cond_on], rfl⟩, fun h => absurd ?_ h⟩
      simp [KEvent.next, this]
    | other del =>
      have e := OnOther.eq t (KEvent.next K (.other del)).index s
      rw [e]
      exact h
  · intro hif hz
    change (nlMsg _ s m).defidx = 0 at hz
    change _ ∧ (nlMsg _ s m).on _ = false
    cases e with
    | appear l =>
      obtain ⟨a, b, c⟩ := link_state (index := (KEvent.next K (.appear l)).index) (s := s) t may.2.1
      rw [b]
      have hK := hoff (by omega)
      exact ⟨hK, (h.none hK).1⟩
    | flags l up running =>
      obtain ⟨a, b, c⟩ := link_state (index := (KEvent.next K (.flags l up running)).index) (s := s) t
        (h.wf.good l may).2
      rw [b]
      have hK := hoff (by omega)
      exact ⟨by simp [KEvent.next, hK], (h.none hK).1⟩
    | vanish l =>
      obtain ⟨a, b, c⟩ := link_state (index := (KEvent.next K (.vanish l)).index) (s := s) t (h.wf.good l may).2
      rw [b]
      have hK := hoff (by omega)
      exact ⟨by simp [KEvent.next, hK], (h.none hK).1⟩
    | rename l n => exact absurd rfl (hre l n)
    | addRoute r =>
      have h0 : 0 < r.oif := Wf.oif w r (by simp [KEvent.next])
      have e := OnDefault.eq t h0 (KEvent.next K (.addRoute r)).index s
      simp only [Bool.false_eq_true, if_false] at e
      rw [e] at hif
      have := h.calm
      rw [show s.ifdown = true from hif] at this
      cases this
    | delRoute r =>
      have h0 : 0 < r.oif := Wf.oif h.wf r may
      have e := OnDefault.eq t h0 (KEvent.next K (.delRoute r)).index s
      simp only [if_true] at e
      rw [e] at hif
      have := h.calm
      rw [show s.ifdown = true from hif] at this
      cases this
    | other del =>
      have e := OnOther.eq t (KEvent.next K (.other del)).index s
      rw [e] at hif
      have := h.calm
      rw [hif] at this
      cases this

private theorem read_rinv {K : Kern} {s : Nl} (h : RInv K s) {d : List NlMsg} : nlCallback K.index d [] s = s := by
  simp only [nlCallback, nlParse, List.foldl_nil, nlAfter, h.calm, Bool.false_eq_true, if_false]

private def RState (s : NetSys) : Prop :=
  s.lost = false ∧ ((s.queue = [] ∧ RInv s.kern s.nl) ∨
    ∃ K e m, s.queue = [m] ∧ RInv K s.nl ∧ e.May K ∧ KEvent.Tells m e ∧ (∀ l n, e ≠ .rename l n) ∧
      (∀ r, e = .delRoute r → K.routes = [r]) ∧ s.kern = e.next K)

private theorem rstate {s : NetSys} {allow : NetSys → KEvent → Prop} (ha : ∀ s e, allow s e → Fine s e)
    (h : NetReach allow False s) : RState s := by
  induction h with
  | boot w hl hr h1 h2 => exact ⟨rfl, .inl ⟨rfl, boot_rinv w hl hr h1 h2⟩⟩
  | @event s e m _ hal may t ih =>
    obtain ⟨hq, hre, hdel⟩ := ha _ _ hal
    refine ⟨ih.1, .inr ?_⟩
    rcases ih.2 with ⟨_, h⟩ | ⟨_, _, _, h, _⟩
    · exact ⟨s.kern, e, m, by simp [hq], h, may, t, hre, hdel, rfl⟩
    · rw [hq] at h; cases h
  | miss _ hl => exact hl.elim
  | @read s routes _ _ hr ih =>
    refine ⟨ih.1, .inl ⟨rfl, ?_⟩⟩
    rcases ih.2 with ⟨hq, h⟩ | ⟨K, e, m, hq, h, may, t, hre, hdel, hk⟩
    · dsimp only
      rw [hq, read_rinv h]
      exact h
    · dsimp only
      rw [hq, hk]
      rw [hk] at hr
      exact fine_rinv h may t hre hdel hr
  | resync _ hl _ _ ih => rw [ih.1] at hl; cases hl

/-! ## The theorems -/

/-- The full claim -/
def C55_full : Prop :=
  ∀ s, NetReach (fun _ _ => True) True s → s.queue = [] → s.lost = false → LinksRight s.kern s.nl ∧ RouteRight s.kern s.nl

/-- **C55, interfaces.**  However many changes there are before finit reads the messages: when it has read them all,
    the conditions of every interface are right.  Missing: interfaces that get a new name, and messages that are lost. -/
theorem C55_links_partial {s : NetSys}
    (h : NetReach (fun _ e => ∀ l n, e ≠ .rename l n) False s) (hq : s.queue = []) : LinksRight s.kern s.nl := by
  have i := linv (fun _ _ h => h) h
  intro n hn
  have e := i.right n hn
  rw [hq] at e
  simp only [List.foldl_nil] at e
  have e1 := e .exist
  have e2 := e .up
  have e3 := e .running
  simp only [netCond, NetKind.text, truth, NetKind.sel, and_true] at e1 e2 e3
  exact ⟨e1, e2, e3⟩

/-- **C55, default route.**  If finit reads the message of each change before the next one, and only the last default
    route is ever deleted, then `net/route/default` is on if, and only if, there is a default route.  This includes
    routes that go away, without a message, with their interface. -/
theorem C55_route_partial {s : NetSys}
    (h : NetReach (fun s e => s.queue = [] ∧ (∀ l n, e ≠ .rename l n) ∧ ∀ r, e = .delRoute r → s.kern.routes = [r])
      False s) (hq : s.queue = []) : RouteRight s.kern s.nl := by
  have i := rstate (fun _ _ h => h) h
  rcases i.2 with ⟨_, r⟩ | ⟨_, _, _, h, _⟩
  · unfold RouteRight
    constructor
    · intro hon e
      rw [(r.none e).1] at hon
      cases hon
    · intro hne; exact (r.some hne).1
  · rw [hq] at h; cases h

/-! ## Where it fails -/

private def eth0 : KLink := ⟨2, "eth0".toList, true, true⟩
private def eth1 : KLink := ⟨3, "eth1".toList, true, true⟩
private def gw0 : KRoute := ⟨1, 2⟩
private def gw1 : KRoute := ⟨2, 3⟩

private theorem ifName_of {n : CStr} (h : validIfname n = true) : IfName n := by
  simp only [validIfname, Bool.and_eq_true, decide_eq_true_eq, List.all_eq_true, Bool.not_eq_true'] at h
  obtain ⟨⟨⟨⟨h1, h2⟩, h3⟩, h4⟩, h5⟩ := h
  exact ⟨h1, by omega, h3, h4, fun c hc => ⟨(h5 c hc).1.1, (h5 c hc).1.2, (h5 c hc).2⟩⟩

private def linkMsg (del : Bool) (l : KLink) : NlMsg := .link del l.up l.running [.other, .ifname l.name, .other]

private theorem linkMsg_on (l : KLink) : OnLink false l.name l.up l.running (linkMsg false l) :=
  ⟨_, rfl, by simp⟩

private def routeMsg (del : Bool) (r : KRoute) : NlMsg := .route del 0 [.gateway r.gw, .oif r.oif, .other]

private theorem routeMsg_on (del : Bool) (r : KRoute) (h : r.gw ≠ 0) : OnDefault del r (routeMsg del r) :=
  ⟨_, rfl, by simp, fun a => by
    simp only [List.mem_cons, NlAttr.gateway.injEq, reduceCtorEq, List.not_mem_nil, or_false]
    exact ⟨fun e => ⟨e, e ▸ h⟩, And.left⟩, by simp⟩

private theorem empty_wf : Kern.Wf {} := ⟨nofun, nofun, nofun, nofun⟩

private def demoBoot : NetSys := ⟨{}, [], nlResync (Kern.index {}) [] [] {}, false⟩

private theorem demoBoot_reach {allow lossy} : NetReach allow lossy demoBoot :=
  .boot empty_wf ⟨nofun, nofun⟩ ⟨nofun, nofun⟩ rfl rfl

private def twoLinks : Kern := { links := [eth1, eth0] }

private theorem two_wf : twoLinks.Wf := by
  have n0 : IfName "eth0".toList := ifName_of (by decide)
  have n1 : IfName "eth1".toList := ifName_of (by decide)
  refine ⟨?_, ?_, ?_, nofun⟩
  · intro a ha b hb e
    simp only [twoLinks, List.mem_cons, List.not_mem_nil, or_false] at ha hb
    rcases ha with rfl | rfl <;> rcases hb with rfl | rfl <;> first | rfl | (exfalso; revert e; decide)
  · intro a ha b hb e
    simp only [twoLinks, List.mem_cons, List.not_mem_nil, or_false] at ha hb
    rcases ha with rfl | rfl <;> rcases hb with rfl | rfl <;> first | rfl | (exfalso; revert e; decide)
  · intro a ha
    simp only [twoLinks, List.mem_cons, List.not_mem_nil, or_false] at ha
    rcases ha with rfl | rfl
    · exact ⟨by decide, n1⟩
    · exact ⟨by decide, n0⟩

private def demoTwo : NetSys :=
  ⟨twoLinks, [], nlResync twoLinks.index [linkMsg false eth0, linkMsg false eth1] [] {}, false⟩

private theorem demoTwo_reach {allow lossy} : NetReach allow lossy demoTwo := by
  refine .boot two_wf ⟨?_, ?_⟩ ⟨nofun, nofun⟩ rfl rfl
  · intro m hm
    simp only [List.mem_cons, List.not_mem_nil, or_false] at hm
    rcases hm with rfl | rfl
    · exact ⟨eth0, by simp [twoLinks], linkMsg_on eth0⟩
    · exact ⟨eth1, by simp [twoLinks], linkMsg_on eth1⟩
  · intro l hl
    simp only [twoLinks, List.mem_cons, List.not_mem_nil, or_false] at hl
    rcases hl with rfl | rfl
    · exact ⟨_, by simp, linkMsg_on eth1⟩
    · exact ⟨_, by simp, linkMsg_on eth0⟩

/-- An event, and finit reads its message -/
private def tick (s : NetSys) (e : KEvent) (m : NlMsg) (d : List NlMsg) : NetSys :=
  { s with kern := e.next s.kern, queue := [], nl := nlCallback (e.next s.kern).index d (s.queue ++ [m]) s.nl }

private theorem tick_reach {allow lossy} {s : NetSys} (h : NetReach allow lossy s) {e : KEvent} {m : NlMsg}
    {d : List NlMsg} (ha : allow s e) (hm : e.May s.kern) (ht : e.Tells m) (hl : s.lost = false)
    (hd : (e.next s.kern).RouteDump d) : NetReach allow lossy (tick s e m d) :=
  .read (s := { s with kern := e.next s.kern, queue := s.queue ++ [m] }) (.event h ha hm ht) hl hd

/-- Two default routes, and one of them is deleted: finit takes the condition away although there is another default
    route. -/
theorem C55_two_routes : ∃ s, NetReach (fun s e => s.queue = [] ∧ ∀ l n, e ≠ .rename l n) False s ∧ s.queue = [] ∧
    s.kern.routes = [gw0] ∧ s.nl.on "net/route/default".toList = false := by
  have h1 := tick_reach (allow := fun s e => s.queue = [] ∧ ∀ l n, e ≠ .rename l n) (lossy := False)
    demoTwo_reach (e := .addRoute gw0) (m := routeMsg false gw0) (d := [routeMsg false gw0]) ⟨rfl, nofun⟩
    ⟨eth0, by simp [demoTwo, twoLinks], rfl, rfl⟩ (routeMsg_on false gw0 (by decide)) rfl
    ⟨fun m hm => .inr ⟨gw0, by simp [KEvent.next], by
      rw [List.mem_singleton.1 hm]; exact routeMsg_on false gw0 (by decide)⟩,
     fun r hr => ⟨routeMsg false gw0, by simp, by
      simp only [KEvent.next, demoTwo, twoLinks, List.mem_singleton] at hr
      rw [hr]; exact routeMsg_on false gw0 (by decide)⟩⟩
  have h2 := tick_reach h1 (e := .addRoute gw1) (m := routeMsg false gw1)
    (d := [routeMsg false gw0, routeMsg false gw1]) ⟨rfl, nofun⟩
    ⟨eth1, by simp [tick, KEvent.next, demoTwo, twoLinks], rfl, rfl⟩ (routeMsg_on false gw1 (by decide)) rfl
    ⟨by
      intro m hm
      simp only [List.mem_cons, List.not_mem_nil, or_false] at hm
      rcases hm with rfl | rfl
      · exact .inr ⟨gw0, by simp [tick, KEvent.next], routeMsg_on false gw0 (by decide)⟩
      · exact .inr ⟨gw1, by simp [tick, KEvent.next], routeMsg_on false gw1 (by decide)⟩,
     by
      intro r hr
      simp only [KEvent.next, tick, demoTwo, twoLinks, List.mem_cons, List.not_mem_nil, or_false] at hr
      rcases hr with rfl | rfl
      · exact ⟨_, by simp, routeMsg_on false gw1 (by decide)⟩
      · exact ⟨_, by simp, routeMsg_on false gw0 (by decide)⟩⟩
  have h3 := tick_reach h2 (e := .delRoute gw1) (m := routeMsg true gw1) (d := [routeMsg false gw0]) ⟨rfl, nofun⟩
    (by simp [KEvent.May, tick, KEvent.next]) (routeMsg_on true gw1 (by decide)) rfl
    ⟨by
      intro m hm
      rw [List.mem_singleton.1 hm]
      exact .inr ⟨gw0, by simp [tick, KEvent.next], routeMsg_on false gw0 (by decide)⟩,
     by
      intro r hr
      simp only [KEvent.next, tick, demoTwo, twoLinks, List.erase_cons_head, List.mem_singleton] at hr
      subst hr
      exact ⟨_, by simp, routeMsg_on false gw0 (by decide)⟩⟩
  exact ⟨_, h3, rfl, rfl, by decide⟩

/-- An interface gets another name: the conditions of the old name stay on. -/
theorem C55_rename : ∃ s, NetReach (fun s _ => s.queue = []) False s ∧ s.queue = [] ∧
    s.kern.links.map KLink.name = ["eth1".toList, "wan".toList] ∧ s.nl.on "net/eth0/exist".toList = true ∧
    s.nl.on "net/eth0/up".toList = true := by
  have h1 := tick_reach (allow := fun s _ => s.queue = []) (lossy := False) demoTwo_reach
    (e := .rename eth0 "wan".toList) (m := linkMsg false { eth0 with name := "wan".toList }) (d := []) rfl
    ⟨by simp [demoTwo, twoLinks], ifName_of (by decide), by simp [demoTwo, twoLinks, eth0, eth1]⟩
    ⟨_, rfl, by simp⟩ rfl ⟨nofun, by simp [KEvent.next, demoTwo, twoLinks]⟩
  exact ⟨_, h1, rfl, by decide, by decide, by decide⟩

/-- Messages are lost: finit asks the kernel for all interfaces, and then reads the older messages that are still
    there.  The interface is down, and its condition is on. -/
theorem C55_lost : ∃ s, NetReach (fun _ e => ∀ l n, e ≠ .rename l n) True s ∧ s.queue = [] ∧ s.lost = false ∧
    s.kern.links = [{ eth0 with up := false, running := false }] ∧ s.nl.on "net/eth0/up".toList = true := by
  have h1 := NetReach.event (allow := fun _ e => ∀ l n, e ≠ .rename l n) (lossy := True) demoBoot_reach
    (e := .appear eth0) (m := linkMsg false eth0) nofun
    ⟨by decide, ifName_of (by decide), by simp [demoBoot]⟩ (linkMsg_on eth0)
  have h2 := NetReach.miss h1 trivial (e := .flags eth0 false false) nofun (by simp [KEvent.May, KEvent.next])
  have h3 := NetReach.resync h2 rfl (links := [linkMsg false { eth0 with up := false, running := false }]) (routes := [])
    ⟨by
      intro m hm
      rw [List.mem_singleton.1 hm]
      exact ⟨{ eth0 with up := false, running := false }, by simp [KEvent.next, demoBoot], linkMsg_on _⟩,
     by
      intro l hl
      simp only [KEvent.next, demoBoot, List.map_cons, List.map_nil, if_true, List.mem_singleton] at hl
      subst hl
      exact ⟨_, by simp, linkMsg_on _⟩⟩
    ⟨nofun, by simp [KEvent.next, demoBoot]⟩
  have h4 := NetReach.read h3 rfl (routes := []) ⟨nofun, by simp [KEvent.next, demoBoot]⟩
  exact ⟨_, h4, rfl, rfl, by decide, by decide⟩

/-- The full claim is false. -/
theorem C55_full_false : ¬ C55_full := by
  intro h
  obtain ⟨s, hr, hq, hl, hk, hon⟩ := C55_lost
  have mono : ∀ {s}, NetReach (fun _ e => ∀ l n, e ≠ KEvent.rename l n) True s → NetReach (fun _ _ => True) True s := by
    intro s h
    induction h with
    | boot a b c d e => exact .boot a b c d e
    | event _ _ b c ih => exact .event ih trivial b c
    | miss _ _ _ b ih => exact .miss ih trivial trivial b
    | read _ b c ih => exact .read ih b c
    | resync _ b c d ih => exact .resync ih b c d
  have := ((h s (mono hr) hq hl).1 "eth0".toList (ifName_of (by decide))).2.1.1 hon
  rw [hk] at this
  simp at this

/-! ## Examples -/

/-- An interface with the default route vanishes -/
example : ∃ s, NetReach (fun s e => s.queue = [] ∧ (∀ l n, e ≠ .rename l n) ∧
      ∀ r, e = .delRoute r → s.kern.routes = [r]) False s ∧ s.queue = [] ∧ s.kern.routes = [gw0] ∧
    s.nl.on "net/route/default".toList = true := by
  have h1 := tick_reach (allow := fun s e => s.queue = [] ∧ (∀ l n, e ≠ .rename l n) ∧
      ∀ r, e = .delRoute r → s.kern.routes = [r]) (lossy := False)
    demoTwo_reach (e := .addRoute gw0) (m := routeMsg false gw0) (d := [routeMsg false gw0]) ⟨rfl, nofun, nofun⟩
    ⟨eth0, by simp [demoTwo, twoLinks], rfl, rfl⟩ (routeMsg_on false gw0 (by decide)) rfl
    ⟨fun m hm => .inr ⟨gw0, by simp [KEvent.next], by
      rw [List.mem_singleton.1 hm]; exact routeMsg_on false gw0 (by decide)⟩,
     fun r hr => ⟨routeMsg false gw0, by simp, by
      simp only [KEvent.next, demoTwo, twoLinks, List.mem_singleton] at hr
      rw [hr]; exact routeMsg_on false gw0 (by decide)⟩⟩
  exact ⟨_, h1, rfl, rfl, by decide⟩

/-- Two changes before finit reads -/
example : ∃ s, NetReach (fun _ e => ∀ l n, e ≠ .rename l n) False s ∧ s.queue = [] ∧
    s.kern.links = [{ eth0 with up := false, running := false }] ∧ s.nl.on "net/eth0/exist".toList = true ∧
    s.nl.on "net/eth0/up".toList = false := by
  have h1 := NetReach.event (allow := fun _ e => ∀ l n, e ≠ .rename l n) (lossy := False) demoBoot_reach
    (e := .appear eth0) (m := linkMsg false eth0) nofun
    ⟨by decide, ifName_of (by decide), by simp [demoBoot]⟩ (linkMsg_on eth0)
  have h2 := NetReach.event h1 (e := .flags eth0 false false)
    (m := linkMsg false { eth0 with up := false, running := false }) nofun (by simp [KEvent.May, KEvent.next])
    (linkMsg_on { eth0 with up := false, running := false })
  have h4 := NetReach.read h2 rfl (routes := []) ⟨nofun, by simp [KEvent.next, demoBoot]⟩
  exact ⟨_, h4, rfl, by decide, by decide, by decide⟩

end Verif
