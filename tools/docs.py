import re
def prop(text):
    g=open('tools/gen_props.py').read()
    g=g.replace('os.chdir(',text.strip()+'\n\nos.chdir(',1); open('tools/gen_props.py','w').write(g)
def note(cid,text):
    n=open('tools/notes.py').read().rstrip(); assert n.endswith('}')
    open('tools/notes.py','w').write(n[:-1]+repr(cid)+': '+repr(text)+',\n}\n')
def imports(*ms):
    s=open('lean/Verif.lean').read().rstrip('\n')
    for m in ms:
        if 'import '+m not in s.split('\n'): s+='\nimport '+m
    open('lean/Verif.lean','w').write(s+'\n')
def after(prefix,*lines):
    L=open('DESIGN.md').read().split('\n')
    i=[k for k,l in enumerate(L) if l.startswith(prefix)][0]
    L[i+1:i+1]=list(lines); open('DESIGN.md','w').write('\n'.join(L))
def sub(a,b):
    d=open('DESIGN.md').read(); assert a in d,a
    open('DESIGN.md','w').write(d.replace(a,b))
