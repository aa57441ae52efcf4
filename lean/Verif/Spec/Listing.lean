import Verif.Base
/-! # Reading a listing page by page (specification side of C81) -/

namespace Halo
namespace Spec

/-- What a client gets that asks for one page after the other, always starting after the last item of the page before, until a page is
empty: all pages together. -/
inductive Follow {α κ : Type} (fetch : Option κ → Option (List α)) (key : α → κ) : Option κ → List α → Prop where
  | done (start : Option κ) (h : fetch start = some []) : Follow fetch key start []
  | more (start : Option κ) (page : List α) (x : α) (rest : List α) (h : fetch start = some page) (hx : page.getLast? = some x)
      (hr : Follow fetch key (some (key x)) rest) : Follow fetch key start (page ++ rest)

end Spec
end Halo
