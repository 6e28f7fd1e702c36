import Verif.Conf

/-!
# Network conditions

Model of plugins/netlink.c: the conditions `net/IFACE/exist`, `net/IFACE/up`, `net/IFACE/running` and
`net/route/default`, which follow the messages of the kernel on a netlink socket.

Simplified: messages are lists of attributes and not bytes, so `NLMSG_OK`, `RTA_OK` and the tests for truncated
messages (plugins/netlink.c:63-66,72-75) are taken as passed; a condition is on or off (`cond_set`, `cond_clear` and
`cond_deassert` are modelled in `Verif.Cond`).
-/

namespace Verif

/-- Attributes that are looked at, `RTA_GATEWAY`, `RTA_DST`, `RTA_OIF` and `IFLA_IFNAME`, and all others -/
inductive NlAttr
  | gateway (a : Nat)
  | dst (a : Nat)
  | oif (i : Nat)
  | ifname (n : CStr)
  | other
  deriving DecidableEq, Repr

/-- Messages: `RTM_NEWROUTE`, `RTM_DELROUTE` with `rtm_dst_len`; `RTM_NEWLINK`, `RTM_DELLINK` with the flags
    `IFF_UP` and `IFF_RUNNING` of `ifi_flags` -/
inductive NlMsg
  | route (del : Bool) (dstLen : Nat) (attrs : List NlAttr)
  | link (del : Bool) (up running : Bool) (attrs : List NlAttr)
  deriving DecidableEq, Repr

/-- `nl_defidx` and `nl_ifdown`, plugins/netlink.c:47-48, and the conditions that are on -/
structure Nl where
  on : CStr → Bool := fun _ => false
  defidx : Nat := 0
  ifdown : Bool := false

/-- `cond_set` and `cond_clear` -/
def Nl.cond (s : Nl) (name : CStr) (b : Bool) : Nl := { s with on := fun c => if c = name then b else s.on c }

/-- What `nl_route` picks up on its way through the attributes -/
structure NlRt where
  gw : Nat := 0
  dst : Nat := 0
  plen : Nat := 0
  idx : Nat := 0

/-- The loop of `nl_route`, plugins/netlink.c:77-99 -/
def nlRouteAttr (dstLen : Nat) (r : NlRt) : NlAttr → NlRt
  | .gateway a => { r with gw := a }
  | .dst a => { r with dst := a, plen := dstLen }
  | .oif i => { r with idx := i }
  | _ => r

/-- `nl_route`, plugins/netlink.c:52-116 -/
def nlRoute (del : Bool) (dstLen : Nat) (attrs : List NlAttr) (s : Nl) : Nl :=
  let r := attrs.foldl (nlRouteAttr dstLen) {}
  if (r.dst = 0 ∧ r.plen = 0) ∧ (r.gw ≠ 0 ∨ r.idx ≠ 0) then
    if del then { s.cond "net/route/default".toList false with defidx := 0 }
    else { s.cond "net/route/default".toList true with defidx := r.idx }
  else s

/-- The name of a condition, plugins/netlink.c:118-123 (64 bytes are enough for a valid name) -/
def netCond (ifname : CStr) (cond : String) : CStr := "net/".toList ++ ifname ++ '/' :: cond.toList

/-- `validate_ifname`, plugins/netlink.c:130-147: true for a name that may be used -/
def validIfname (n : CStr) : Bool :=
  decide (n ≠ []) && decide (n.length < 16) && decide (n ≠ ".".toList) && decide (n ≠ "..".toList) &&
  n.all (fun c => decide (c ≠ '/') && decide (c ≠ ':') && !isSpace c)

/-- `nl_check_default`, plugins/netlink.c:154-160; `index` is `if_nametoindex`, 0 with ENODEV if there is none -/
def nlCheckDefault (index : CStr → Nat) (ifname : CStr) (s : Nl) : Nl :=
  if (0 < s.defidx ∧ s.defidx = index ifname) ∨ index ifname = 0 then { s with ifdown := true } else s

/-- One attribute of `nl_link`, plugins/netlink.c:183-226.  `IFNAMSIZ` is 16, and the buffer has 17 bytes. -/
def nlLinkAttr (index : CStr → Nat) (del up running : Bool) (s : Nl) : NlAttr → Nl
  | .ifname n =>
    let n := strlcpy 17 n
    if validIfname n then
      if del then
        nlCheckDefault index n
          (((s.cond (netCond n "exist") false).cond (netCond n "up") false).cond (netCond n "running") false)
      else
        let s := ((s.cond (netCond n "exist") true).cond (netCond n "up") up).cond (netCond n "running") running
        if !up || !running then nlCheckDefault index n s else s
    else s
  | _ => s

/-- `nl_link`, plugins/netlink.c:162-227 -/
def nlLink (index : CStr → Nat) (del up running : Bool) (attrs : List NlAttr) (s : Nl) : Nl :=
  attrs.foldl (nlLinkAttr index del up running) s

/-- The switch in `nl_parse`, plugins/netlink.c:264-292 -/
def nlMsg (index : CStr → Nat) (s : Nl) : NlMsg → Nl
  | .route del dstLen attrs => nlRoute del dstLen attrs s
  | .link del up running attrs => nlLink index del up running attrs s

/-- `nl_parse`, plugins/netlink.c:229-295, of all messages there are -/
def nlParse (index : CStr → Nat) (msgs : List NlMsg) (s : Nl) : Nl := msgs.foldl (nlMsg index) s

/-- The end of `nl_callback`, plugins/netlink.c:389-403; `routes` is the answer to `RTM_GETROUTE` -/
def nlAfter (index : CStr → Nat) (routes : List NlMsg) (s : Nl) : Nl :=
  if s.ifdown then
    let s := if 0 < s.defidx then
        let s := nlParse index routes { s with defidx := 0 }
        if s.defidx = 0 then s.cond "net/route/default".toList false else s
      else s
    { s with ifdown := false }
  else s

/-- `nl_callback`, plugins/netlink.c:375-404, if no message was lost -/
def nlCallback (index : CStr → Nat) (routes : List NlMsg) (msgs : List NlMsg) (s : Nl) : Nl :=
  nlAfter index routes (nlParse index msgs s)

/-- `nl_resync(1)`, plugins/netlink.c:349-373: what `nl_callback` does first if messages were lost.  `links` is the
    answer to `RTM_GETLINK`.  `cond_deassert` takes all conditions below `net/` away. -/
def nlResync (index : CStr → Nat) (links routes : List NlMsg) (s : Nl) : Nl :=
  nlParse index routes (nlParse index links { s with on := fun c => s.on c && !("net/".toList.isPrefixOf c) })

end Verif
