"""Check that the anchors of properties.jsonl name symbols of /repo."""
import ast, json
def syms(path):
    out=set()
    tree=ast.parse(open(path).read())
    for n in ast.walk(tree):
        if isinstance(n,ast.ClassDef):
            out.add(n.name)
            for m in n.body:
                if isinstance(m,ast.FunctionDef): out.add(n.name+"."+m.name)
    for n in tree.body:
        if isinstance(n,ast.FunctionDef): out.add(n.name)
    return out
for l in open("/verif/properties.jsonl"):
    d=json.loads(l)
    for a in d["anchors"]:
        f,_,s=a.partition(":")
        try: S=syms("/repo/"+f)
        except OSError: print(d["id"],"no file",a); continue
        if s and s not in S: print(d["id"],a)
